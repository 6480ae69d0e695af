import Verif.Locker
/-!
# C33 — locks are mutually exclusive
-/

namespace Tork.Locker

/-- Lock object `h` is for key `k` and has not been released yet. -/
def Holds (w : World) (h : Nat) (k : String) : Prop := w.handles[h]? = some (k, true)

/-- The client releases only locks it still holds (i.e. each lock object at most once). -/
def Polite (w : World) : Op → Prop
  | .acquire _ => True
  | .release h => ∃ k, Holds w h k

/-- A history in which every release is polite. -/
def PoliteRun : World → List Op → Prop
  | _, [] => True
  | w, op :: ops => Polite w op ∧ PoliteRun (step w op).2 ops

/-- The held keys are exactly the keys of the outstanding objects, one object each. -/
def Inv (w : World) : Prop :=
  (∀ k, k ∈ w.locks ↔ ∃ h, Holds w h k) ∧ ∀ h h' k, Holds w h k → Holds w h' k → h = h'

theorem step_inv (w : World) (op : Op) (hi : Inv w) (hp : Polite w op) : Inv (step w op).2 := by
  cases op with
  | acquire k =>
    simp only [step, acquireLock]
    by_cases hk : k ∈ w.locks
    · simpa [hk] using hi
    · simp only [hk, if_false]
      have hno : ∀ h, ¬ Holds w h k := fun h hh => hk ((hi.1 k).2 ⟨h, hh⟩)
      have key : ∀ h x, Holds { locks := k :: w.locks, handles := w.handles ++ [(k, true)] } h x ↔
          Holds w h x ∨ (h = w.handles.length ∧ x = k) := by
        intro h x
        simp only [Holds]
        by_cases hl : h < w.handles.length
        · rw [List.getElem?_append_left hl]
          constructor
          · exact .inl
          · rintro (h1 | ⟨h1, _⟩)
            · exact h1
            · omega
        · have : w.handles[h]? = none := by simp; omega
          rw [List.getElem?_append_right (by omega), this]
          by_cases he : h = w.handles.length
          · subst he; simp [eq_comm]
          · have : h - w.handles.length ≠ 0 := by omega
            obtain ⟨n, hn⟩ := Nat.exists_eq_succ_of_ne_zero this
            simp [hn, he]
      constructor
      · intro x
        simp only [List.mem_cons, hi.1 x]
        constructor
        · rintro (rfl | ⟨h, hh⟩)
          · exact ⟨_, (key _ _).2 (.inr ⟨rfl, rfl⟩)⟩
          · exact ⟨h, (key _ _).2 (.inl hh)⟩
        · rintro ⟨h, hh⟩
          rcases (key _ _).1 hh with hh | ⟨_, rfl⟩
          · exact .inr ⟨h, hh⟩
          · exact .inl rfl
      · intro h h' x hh hh'
        rcases (key _ _).1 hh with a | ⟨a, rfl⟩ <;> rcases (key _ _).1 hh' with b | ⟨b, e⟩
        · exact hi.2 _ _ _ a b
        · subst e; exact absurd a (hno _)
        · exact absurd b (hno _)
        · omega
  | release h =>
    obtain ⟨k, hk⟩ := hp
    have hkl : k ∈ w.locks := (hi.1 k).2 ⟨h, hk⟩
    have hk0 := hk
    unfold Holds at hk
    have hlen : h < w.handles.length := by
      rcases Nat.lt_or_ge h w.handles.length with h1 | h1
      · exact h1
      · rw [List.getElem?_eq_none h1] at hk; simp at hk
    simp only [step, hk, releaseLock, hkl, if_true]
    have key : ∀ i x, Holds { locks := w.locks.filter (· ≠ k), handles := w.handles.set h (k, false) } i x ↔
        Holds w i x ∧ i ≠ h := by
      intro i x
      simp only [Holds]
      by_cases he : i = h
      · subst he; simp [List.getElem?_set_self hlen]
      · rw [List.getElem?_set_ne (Ne.symm he)]; simp [he]
    constructor
    · intro x
      simp only [List.mem_filter, decide_eq_true_eq, hi.1 x]
      constructor
      · rintro ⟨⟨i, hi'⟩, hne⟩
        refine ⟨i, (key _ _).2 ⟨hi', ?_⟩⟩
        rintro rfl
        unfold Holds at hi'; rw [hk] at hi'; simp at hi'; exact hne hi'.symm
      · rintro ⟨i, hh⟩
        obtain ⟨h1, h2⟩ := (key _ _).1 hh
        refine ⟨⟨i, h1⟩, ?_⟩
        rintro rfl
        exact h2 (hi.2 _ _ _ h1 hk0)
    · intro i i' x hh hh'
      exact hi.2 _ _ _ ((key _ _).1 hh).1 ((key _ _).1 hh').1

theorem run_inv (w : World) (ops : List Op) (hi : Inv w) (hp : PoliteRun w ops) : Inv (run w ops) := by
  induction ops generalizing w with
  | nil => exact hi
  | cons op ops ih => exact ih _ (step_inv w op hi hp.1) hp.2

theorem init_inv : Inv {} := ⟨by simp [Holds], by simp [Holds]⟩

/-- **C33 (in memory).** After any history in which clients release only locks they hold: two
outstanding locks never have the same key; acquiring a key succeeds exactly when nobody holds it;
releasing a held lock succeeds. -/
theorem C33_inmemory_exclusive (ops : List Op) (hp : PoliteRun {} ops) :
    (∀ h h' k, Holds (run {} ops) h k → Holds (run {} ops) h' k → h = h') ∧
    (∀ k, (step (run {} ops) (.acquire k)).1 = true ↔ ¬ ∃ h, Holds (run {} ops) h k) ∧
    (∀ h k, Holds (run {} ops) h k → (step (run {} ops) (.release h)).1 = true) := by
  have hi := run_inv {} ops init_inv hp
  refine ⟨hi.2, ?_, ?_⟩
  · intro k
    rw [← hi.1 k]
    simp only [step, acquireLock]
    by_cases hk : k ∈ (run {} ops).locks <;> simp [hk]
  · intro h k hh
    have hkl := (hi.1 k).2 ⟨h, hh⟩
    unfold Holds at hh
    simp [step, hh, releaseLock, hkl]

/-- **C33 (independence).** Operations on one key do not change which other keys can be acquired. -/
theorem C33_inmemory_independent (w : World) (k k' : String) (hne : k ≠ k') :
    ((step (step w (.acquire k)).2 (.acquire k')).1 = (step w (.acquire k')).1) ∧
    (∀ h b, w.handles[h]? = some (k, b) →
      (step (step w (.release h)).2 (.acquire k')).1 = (step w (.acquire k')).1) := by
  constructor
  · simp only [step, acquireLock]
    by_cases h1 : k ∈ w.locks <;> by_cases h2 : k' ∈ w.locks <;> simp [h1, h2, Ne.symm hne]
  · intro h b hb
    simp only [step, hb, releaseLock]
    by_cases h1 : k ∈ w.locks <;> by_cases h2 : k' ∈ w.locks <;>
      simp [h1, h2, acquireLock, Ne.symm hne]

/-- The politeness hypothesis is needed: the in-memory locker does not check ownership, so releasing
one lock object twice frees a lock that somebody else acquired in between, after which two clients
hold the same key. -/
theorem C33_inmemory_double_release_breaks_exclusion :
    ∃ ops h h', h ≠ h' ∧ Holds (run {} ops) h "a" ∧ Holds (run {} ops) h' "a" :=
  ⟨[.acquire "a", .release 0, .acquire "a", .release 0, .acquire "a"], 1, 2, by decide, by
    simp [Holds, run, step, acquireLock, releaseLock], by
    simp [Holds, run, step, acquireLock, releaseLock]⟩

/-- **C33 (in memory, effects).** After any polite history: releasing a lock ends that lock and no other one; a successful acquisition adds
one lock, and a failed operation changes nothing. -/
theorem C33_inmemory_effects (ops : List Op) (hp : PoliteRun {} ops) :
    (∀ h k, Holds (run {} ops) h k → ∀ h' k', Holds (step (run {} ops) (.release h)).2 h' k' ↔ Holds (run {} ops) h' k' ∧ h' ≠ h) ∧
    (∀ k, (step (run {} ops) (.acquire k)).1 = true → ∃ n, ¬ (∃ k', Holds (run {} ops) n k') ∧
      ∀ h' k', Holds (step (run {} ops) (.acquire k)).2 h' k' ↔ Holds (run {} ops) h' k' ∨ (h' = n ∧ k' = k)) ∧
    ∀ op, (step (run {} ops) op).1 = false → (step (run {} ops) op).2 = run {} ops := by
  have hi := run_inv {} ops init_inv hp
  generalize run {} ops = w at hi ⊢
  refine ⟨fun h k hh h' k' => ?_, fun k hk => ?_, fun op => ?_⟩
  · have hkl := (hi.1 k).2 ⟨h, hh⟩
    have hl : h < w.handles.length := (List.getElem?_eq_some_iff.1 hh).1
    unfold Holds at hh
    simp only [step, hh, releaseLock, hkl, if_true]
    unfold Holds
    by_cases he : h' = h
    · subst he
      simp [List.getElem?_set_self hl]
    · simp [List.getElem?_set_ne (Ne.symm he), he]
  · simp only [step, acquireLock] at hk ⊢
    by_cases hkl : k ∈ w.locks
    · simp [hkl] at hk
    · simp only [hkl, if_false]
      refine ⟨w.handles.length, by rintro ⟨k', hn⟩; simp [Holds] at hn, fun i' k' => ?_⟩
      unfold Holds
      by_cases h1 : i' < w.handles.length
      · rw [List.getElem?_append_left h1]
        constructor
        · exact fun h => .inl h
        · rintro (h | ⟨h, -⟩)
          · exact h
          · omega
      · have hn : w.handles[i']? = none := List.getElem?_eq_none (by omega)
        rw [List.getElem?_append_right (by omega), hn]
        by_cases h2 : i' = w.handles.length
        · subst h2; simp [eq_comm]
        · have : i' - w.handles.length ≠ 0 := by omega
          obtain ⟨m, hm⟩ := Nat.exists_eq_succ_of_ne_zero this
          simp [hm, h2]
  · cases op with
    | acquire k => simp only [step]; split <;> simp
    | release h =>
      simp only [step]
      split
      · simp
      · split <;> simp

/-! ## Postgres -/

/-- Transaction `i` still holds its lock, taken for key `k`. -/
def PgHolds (w : PgWorld) (i : Nat) (k : String) : Prop := ∃ n, w.txs[i]? = some (k, some n)

def PgInv (hash : String → Nat) (w : PgWorld) : Prop :=
  (∀ (i : Nat) k n, w.txs[i]? = some (k, some n) → n = hash k) ∧
  ∀ (i i' : Nat) k k' n, w.txs[i]? = some (k, some n) → w.txs[i']? = some (k', some n) → i = i'

theorem set_none_inv (hash : String → Nat) (w : PgWorld) (i : Nat) (k : String) (hi : PgInv hash w) :
    PgInv hash { txs := w.txs.set i (k, none) } := by
  have key : ∀ (j : Nat) x n, (w.txs.set i (k, none))[j]? = some (x, some n) → w.txs[j]? = some (x, some n) := by
    intro j x n hj
    by_cases he : j = i
    · subst he
      by_cases hl : j < w.txs.length
      · rw [List.getElem?_set_self hl] at hj; simp at hj
      · rw [List.getElem?_eq_none (by simp; omega)] at hj; simp at hj
    · rwa [List.getElem?_set_ne (Ne.symm he)] at hj
  exact ⟨fun j x n hj => hi.1 j x n (key _ _ _ hj), fun a b x y n ha hb =>
    hi.2 a b x y n (key _ _ _ ha) (key _ _ _ hb)⟩

theorem pgStep_inv (hash : String → Nat) (w : PgWorld) (op : PgOp) (hi : PgInv hash w) :
    PgInv hash (pgStep hash w op).2 := by
  cases op with
  | acquire k =>
    simp only [pgStep]
    split
    · exact hi
    · next hno =>
      simp only [List.any_eq_true, decide_eq_true_eq, not_exists, not_and] at hno
      have hno' : ∀ i x, w.txs[i]? ≠ some (x, some (hash k)) := fun i x hx =>
        hno _ (List.mem_of_getElem? hx) rfl
      have key : ∀ j x n, (w.txs ++ [(k, some (hash k))])[j]? = some (x, some n) →
          w.txs[j]? = some (x, some n) ∨ (j = w.txs.length ∧ x = k ∧ n = hash k) := by
        intro j x n hj
        by_cases hl : j < w.txs.length
        · rw [List.getElem?_append_left hl] at hj; exact .inl hj
        · rw [List.getElem?_append_right (by omega)] at hj
          by_cases he : j = w.txs.length
          · subst he; simp at hj; exact .inr ⟨rfl, hj.1.symm, hj.2.symm⟩
          · have : j - w.txs.length ≠ 0 := by omega
            obtain ⟨m, hm⟩ := Nat.exists_eq_succ_of_ne_zero this
            simp [hm] at hj
      constructor
      · intro j x n hj
        rcases key _ _ _ hj with h | ⟨_, rfl, rfl⟩
        · exact hi.1 _ _ _ h
        · rfl
      · intro a b x y n ha hb
        rcases key _ _ _ ha with h | ⟨h, rfl, rfl⟩ <;> rcases key _ _ _ hb with h' | ⟨h', rfl, e⟩
        · exact hi.2 _ _ _ _ _ h h'
        · subst e; exact absurd h (hno' _ _)
        · exact absurd h' (hno' _ _)
        · omega
  | release i =>
    simp only [pgStep]
    split
    · exact set_none_inv hash w i _ hi
    · exact hi
  | connectionLost i =>
    simp only [pgStep]
    split
    · exact set_none_inv hash w i _ hi
    · exact hi

theorem pgRun_inv (hash : String → Nat) (w : PgWorld) (ops : List PgOp) (hi : PgInv hash w) :
    PgInv hash (pgRun hash w ops) := by
  induction ops generalizing w with
  | nil => exact hi
  | cons op ops ih => exact ih _ (pgStep_inv hash w op hi)

/-- **C33 (Postgres).** After any history of acquisitions, (even repeated) releases and connection
losses, two open locks never have the same key; an acquisition succeeds exactly when no open lock's
key has the same 64-bit hash — in particular it fails when the key is held. -/
theorem C33_postgres_exclusive (hash : String → Nat) (ops : List PgOp) :
    (∀ i i' k, PgHolds (pgRun hash {} ops) i k → PgHolds (pgRun hash {} ops) i' k → i = i') ∧
    (∀ k, (pgStep hash (pgRun hash {} ops) (.acquire k)).1 = true ↔
      ¬ ∃ i k', hash k' = hash k ∧ PgHolds (pgRun hash {} ops) i k') := by
  have hi := pgRun_inv hash {} ops ⟨by simp, by simp⟩
  constructor
  · rintro i i' k ⟨n, hn⟩ ⟨m, hm⟩
    have e1 := hi.1 _ _ _ hn
    have e2 := hi.1 _ _ _ hm
    subst e1; subst e2
    exact hi.2 _ _ _ _ _ hn hm
  · intro k
    simp only [pgStep]
    split
    · next h =>
      simp only [Bool.false_eq_true, false_iff, Classical.not_not]
      simp only [List.any_eq_true, decide_eq_true_eq] at h
      obtain ⟨⟨k', o⟩, hm, rfl⟩ := h
      obtain ⟨i, hi'⟩ := List.getElem?_of_mem hm
      exact ⟨i, k', (hi.1 _ _ _ hi').symm, _, hi'⟩
    · next h =>
      simp only [true_iff]
      rintro ⟨i, k', he, n, hn⟩
      apply h
      simp only [List.any_eq_true, decide_eq_true_eq]
      exact ⟨_, List.mem_of_getElem? hn, by rw [hi.1 _ _ _ hn, he]⟩

/-- **C33 (Postgres, effects).** Releasing succeeds exactly for a lock that is still held. A release, or the loss of the connection, ends that
lock and no other one; a successful acquisition adds one lock, a failed operation changes nothing. -/
theorem C33_postgres_effects (hash : String → Nat) (w : PgWorld) :
    (∀ i, (pgStep hash w (.release i)).1 = true ↔ ∃ k, PgHolds w i k) ∧
    (∀ i, ∀ op ∈ [PgOp.release i, .connectionLost i], ∀ i' k, PgHolds (pgStep hash w op).2 i' k ↔ PgHolds w i' k ∧ i' ≠ i) ∧
    (∀ k, (pgStep hash w (.acquire k)).1 = true → ∃ n, ¬ (∃ k', PgHolds w n k') ∧
      ∀ i' k', PgHolds (pgStep hash w (.acquire k)).2 i' k' ↔ PgHolds w i' k' ∨ (i' = n ∧ k' = k)) ∧
    ∀ op, (pgStep hash w op).1 = false → (pgStep hash w op).2 = w := by
  have key : ∀ (i : Nat) (k : String) (n : Nat), w.txs[i]? = some (k, some n) → ∀ i' k', PgHolds { txs := w.txs.set i (k, none) } i' k' ↔ PgHolds w i' k' ∧ i' ≠ i := by
    intro i k n h i' k'
    have hl : i < w.txs.length := (List.getElem?_eq_some_iff.1 h).1
    unfold PgHolds
    by_cases he : i' = i
    · subst he
      simp [List.getElem?_set_self hl]
    · simp [List.getElem?_set_ne (Ne.symm he), he]
  have none : ∀ i : Nat, (∀ k n, w.txs[i]? ≠ some (k, some n)) → ∀ i' k', PgHolds w i' k' ↔ PgHolds w i' k' ∧ i' ≠ i := by
    intro i h i' k'
    refine ⟨fun hh => ⟨hh, ?_⟩, fun hh => hh.1⟩
    rintro rfl
    obtain ⟨n, hn⟩ := hh
    exact h _ _ hn
  refine ⟨fun i => ?_, fun i op hop i' k' => ?_, fun k hk => ?_, fun op => ?_⟩
  · simp only [pgStep]
    split
    · rename_i k n h; simp only [true_iff]; exact ⟨k, n, h⟩
    · rename_i h; simp only [Bool.false_eq_true, false_iff]; rintro ⟨k, n, hn⟩; exact h _ _ hn
  · simp only [List.mem_cons, List.not_mem_nil, or_false] at hop
    rcases hop with rfl | rfl
    all_goals
      simp only [pgStep]
      split
      · rename_i k n h; exact key i k n h i' k'
      · rename_i h; exact none i (fun k n hn => h k n hn) i' k'
  · simp only [pgStep] at hk ⊢
    split at hk
    · cases hk
    · rename_i hc
      rw [if_neg hc]
      refine ⟨w.txs.length, by rintro ⟨k', n, hn⟩; simp at hn, fun i' k' => ?_⟩
      unfold PgHolds
      by_cases h1 : i' < w.txs.length
      · rw [List.getElem?_append_left h1]
        constructor
        · exact fun h => .inl h
        · rintro (h | ⟨h, -⟩)
          · exact h
          · omega
      · have hn : w.txs[i']? = Option.none := List.getElem?_eq_none (by omega)
        rw [List.getElem?_append_right (by omega), hn]
        by_cases h2 : i' = w.txs.length
        · subst h2; simp [eq_comm]
        · have : i' - w.txs.length ≠ 0 := by omega
          obtain ⟨m, hm⟩ := Nat.exists_eq_succ_of_ne_zero this
          simp [hm, h2]
  · cases op <;> simp only [pgStep] <;> split <;> simp

/-! Concrete polite history with contention: the second acquisition of "a" fails, "b" is independent,
after the release "a" can be acquired again. -/
example : PoliteRun {} [.acquire "a", .acquire "a", .acquire "b", .release 0, .acquire "a"] := by
  simp [PoliteRun, Polite, Holds, step, acquireLock]
example : ((run {} [.acquire "a", .acquire "a", .acquire "b", .release 0, .acquire "a"]).handles) =
    [("a", false), ("b", true), ("a", true)] := by decide
example : (pgStep (fun s => s.length) (pgRun (fun s => s.length) {} [.acquire "a", .release 0, .release 0,
    .acquire "a"]) (.acquire "a")).1 = false := by decide

end Tork.Locker
