import Verif.Images
/-!
# C62 — images are there while they are used, and go when they are not

Everything is stated about traces: what an observer sees of the runtime and the daemon, oldest first.
-/

namespace Tork.Images
open Tork.Queues (upd)

/-! ## Specification -/

/-- The runtime removes image `i`. -/
def Removes (i : String) (x : Lbl) : Prop := x = .dropped i ∨ ∃ t, x = .pruned i t

/-- During the trace, task `k` was told that image `i` is available, and has not finished since. -/
def Uses (l : List Lbl) (k : Nat) (i : String) : Prop :=
  ∃ l1 l2 t, l = l1 ++ .served k i t :: l2 ∧ .finished k ∉ l2

/-- the image was asked for -/
def Asked (l : List Lbl) (i : String) : Prop := ∃ k t, .asked k i t ∈ l

/-! ## Invariants -/

/-- the task has begun and not ended -/
def Pc.live : Pc → Bool
  | .running | .waiting _ => true
  | _ => false

/-- whom the puller serves -/
def Puller.who : Puller → Option (Nat × String)
  | .idle => none
  | .lookup k i | .refresh k i | .check k i | .pull k i | .verify k i | .drop k i | .record k i | .answer k i _ => some (k, i)

/-- the puller found that the image is not recorded -/
def Puller.fresh : Puller → Option String
  | .check _ i | .pull _ i | .verify _ i | .drop _ i | .record _ i => some i
  | _ => none

/-- the puller found or made the image available -/
def Puller.got : Puller → Option String
  | .refresh _ i | .answer _ i true => some i
  | _ => none

structure Inv (s : St) : Prop where
  who : ∀ k i, s.puller.who = some (k, i) → s.pc k = .waiting i
  count : ∃ act : List Nat, act.Nodup ∧ (∀ k, k ∈ act ↔ (s.pc k).live = true) ∧ s.tasks = act.length
  loop : s.pruner = .loop → ∀ k, (s.pc k).live = false
  hold : ∀ k i, i ∈ s.holds k → (s.pc k).live = true ∧ s.images i ≠ none
  fresh : ∀ i, s.puller.fresh = some i → s.images i = none
  got : ∀ i, s.puller.got = some i → s.images i ≠ none

theorem count_same {s s' : St} (h : ∃ act : List Nat, act.Nodup ∧ (∀ k, k ∈ act ↔ (s.pc k).live = true) ∧ s.tasks = act.length)
    (ht : s'.tasks = s.tasks) (ha : ∀ k, (s'.pc k).live = true ↔ (s.pc k).live = true) :
    ∃ act : List Nat, act.Nodup ∧ (∀ k, k ∈ act ↔ (s'.pc k).live = true) ∧ s'.tasks = act.length := by
  obtain ⟨act, h1, h2, h3⟩ := h
  exact ⟨act, h1, fun k => (h2 k).trans (ha k).symm, ht.trans h3⟩

theorem inv_init (p : String → Bool) : Inv (init p) where
  who := by simp [init, Puller.who]
  count := ⟨[], by simp, by simp [Pc.live, init], by simp [init]⟩
  loop := by simp [init]
  hold := by simp [init]
  fresh := by simp [init, Puller.fresh]
  got := by simp [init, Puller.got]

theorem got_who {p : Puller} {j : String} (h : p.got = some j) : ∃ k, p.who = some (k, j) := by
  cases p with
  | answer k i b => cases b <;> simp_all [Puller.got, Puller.who]
  | _ => simp_all [Puller.got, Puller.who]

theorem inv_step {c : Cfg} {s s' : St} {x : Lbl} (hi : Inv s) (h : Step c s x s') : Inv s' := by
  obtain ⟨who, count, loop, hold, fresh, got⟩ := hi
  cases h
  case begin k h1 h2 =>
    refine ⟨?_, ?_, ?_, ?_, fresh, got⟩
    · grind [upd]
    · obtain ⟨act, a1, a2, a3⟩ := count
      refine ⟨k :: act, List.nodup_cons.2 ⟨?_, a1⟩, ?_, by simp [a3]⟩
      · rw [a2]; simp [Pc.live, h1]
      · intro k'
        have := a2 k'
        by_cases e : k' = k <;> simp_all [Pc.live, upd]
    · simp [h2]
    · grind [upd, Pc.live]
  case finish k h1 h2 =>
    refine ⟨?_, ?_, ?_, ?_, fresh, got⟩
    · grind [upd]
    · obtain ⟨act, a1, a2, a3⟩ := count
      have hk : k ∈ act := (a2 k).2 (by simp [h1, Pc.live])
      refine ⟨act.erase k, a1.erase k, ?_, ?_⟩
      · intro k'
        have := a2 k'
        rw [a1.mem_erase_iff]
        by_cases e : k' = k <;> simp_all [Pc.live, upd]
      · have := List.length_erase_of_mem hk
        have := List.length_pos_of_mem hk
        show s.tasks - 1 = _
        omega
    · simp [h2]
    · intro k' i hm
      by_cases e : k' = k
      · subst e; simp [upd] at hm
      · have := hold k' i (by simpa [upd, e] using hm)
        simpa [Pc.live, upd, e] using this
  case quiet h1 h2 =>
    refine ⟨who, count, ?_, hold, fresh, got⟩
    intro _ k
    obtain ⟨act, a1, a2, a3⟩ := count
    show (s.pc k).live = false
    cases hc : (s.pc k).live with
    | false => rfl
    | true =>
      have := List.length_pos_of_mem ((a2 k).2 hc)
      omega
  case prunes i t h1 h2 h3 =>
    have hno := loop h1
    refine ⟨who, count, loop, ?_, ?_, ?_⟩
    · intro k j hm; have := hno k; have := (hold k j hm).1; simp_all
    · grind [upd]
    · intro j hj
      exfalso
      obtain ⟨k, hk⟩ := got_who (p := s.puller) hj
      have := hno k; simp [who k j hk, Pc.live] at this
  case answerNo k i h1 =>
    have hk : s.pc k = .waiting i := who k i (by simp [h1, Puller.who])
    have hl : (s.pc k).live = true := by simp [hk, Pc.live]
    refine ⟨?_, count_same count rfl ?_, ?_, ?_, ?_, ?_⟩ <;>
      grind [upd, Pc.live, Puller.who, Puller.fresh, Puller.got]
  case answerYes k i h1 =>
    have hk : s.pc k = .waiting i := who k i (by simp [h1, Puller.who])
    have hl : (s.pc k).live = true := by simp [hk, Pc.live]
    have hg : s.images i ≠ none := got i (by simp [h1, Puller.got])
    refine ⟨?_, count_same count rfl ?_, ?_, ?_, ?_, ?_⟩ <;>
      grind [upd, Pc.live, Puller.who, Puller.fresh, Puller.got]
  all_goals
    refine ⟨?_, count_same count rfl ?_, ?_, ?_, ?_, ?_⟩ <;>
      grind [upd, Pc.live, Puller.who, Puller.fresh, Puller.got, afterPull]

theorem inv_trace {c : Cfg} {l : List Lbl} {s : St} (h : Trace c l s) : Inv s := by
  induction h with
  | start p => exact inv_init p
  | step l s s' x _ hs ih => exact inv_step ih hs

/-! ## Invariants about the trace -/

/-- What the trace says about the state. -/
structure TInv (c : Cfg) (l : List Lbl) (s : St) : Prop where
  /-- a task that was told an image is available and has not finished still holds it -/
  held : ∀ k i l1 l2 t, l = l1 ++ .served k i t :: l2 → .finished k ∉ l2 → i ∈ s.holds k
  /-- requests are not in the future -/
  past : ∀ k i t, .asked k i t ∈ l → t ≤ s.now
  /-- a recorded image was asked for -/
  asked : ∀ i, s.images i ≠ none → Asked l i
  waits : ∀ k i, s.pc k = .waiting i → Asked l i
  /-- the time of an image that is about to be handed out is not before the request -/
  recent : ∀ k i t t', s.puller = .answer k i true → s.images i = some t → .asked k i t' ∈ l → t' ≤ t
  /-- the time of an image is not before a request that was answered -/
  times : ∀ i t k t' l1 l2, s.images i = some t → l = l1 ++ l2 → .asked k i t' ∈ l1 → (∃ τ, .served k i τ ∈ l2) → t' ≤ t

theorem tinv_init (c : Cfg) (p : String → Bool) : TInv c [] (init p) := by
  constructor <;> simp [init, Asked]

/-- A trace is cut in the old part or right at its end. -/
theorem cut_last {α : Type} {l l1 l2 : List α} {x a : α} (h : l ++ [x] = l1 ++ a :: l2) :
    (l2 = [] ∧ x = a ∧ l = l1) ∨ ∃ l3, l2 = l3 ++ [x] ∧ l = l1 ++ a :: l3 := by
  rcases List.eq_nil_or_concat l2 with rfl | ⟨l3, y, rfl⟩
  · have := List.append_inj' h rfl
    simp at this
    exact .inl ⟨rfl, this.2, this.1⟩
  · rw [List.concat_eq_append] at h ⊢
    have h' : l ++ [x] = (l1 ++ a :: l3) ++ [y] := by simpa using h
    have := List.append_inj' h' rfl
    simp at this
    exact .inr ⟨l3, by rw [this.2], this.1⟩

theorem held_step {c : Cfg} {l : List Lbl} {s s' : St} {x : Lbl} (ht : TInv c l s) (h : Step c s x s') :
    ∀ k i l1 l2 t, l ++ [x] = l1 ++ .served k i t :: l2 → .finished k ∉ l2 → i ∈ s'.holds k := by
  intro k i l1 l2 t e hf
  rcases cut_last e with ⟨rfl, rfl, rfl⟩ | ⟨l3, rfl, rfl⟩
  · cases h; simp [upd]
  · have := ht.held k i l1 l3 t rfl (fun hm => hf (by simp [hm]))
    have hx : x ≠ .finished k := fun hx => hf (by simp [hx])
    cases h <;> simp_all [upd]
    split <;> simp_all

theorem times_step {c : Cfg} {l : List Lbl} {s s' : St} {x : Lbl} (ht : TInv c l s) (h : Step c s x s') :
    ∀ i t k t' l1 l2, s'.images i = some t → l ++ [x] = l1 ++ l2 → .asked k i t' ∈ l1 → (∃ τ, .served k i τ ∈ l2) → t' ≤ t := by
  intro i t k t' l1 l2 hs e ha ⟨τ, hv⟩
  -- the cut in the old trace
  have hold : ∀ t0, s.images i = some t0 → (∀ k' i' τ', x ≠ .served k' i' τ') → t' ≤ t0 := by
    intro t0 h0 hx
    rcases List.eq_nil_or_concat l2 with rfl | ⟨l3, y, rfl⟩
    · simp at hv
    · rw [List.concat_eq_append, ← List.append_assoc] at e
      have := List.append_inj' e rfl
      simp at this
      refine ht.times i t0 k t' l1 l3 h0 this.1 ha ⟨τ, ?_⟩
      rw [List.concat_eq_append] at hv
      rcases List.mem_append.1 hv with hv | hv
      · exact hv
      · simp at hv; exact absurd (this.2.trans hv.symm) (hx k i τ)
  have hin : Lbl.asked k i t' ∈ l ++ [x] := by rw [e]; exact List.mem_append.2 (.inl ha)
  have hnow : (∀ k' i' τ', x ≠ .asked k' i' τ') → t' ≤ s.now := fun hx => by
    rcases List.mem_append.1 hin with h | h
    · exact ht.past k i t' h
    · simp at h; exact absurd h.symm (hx k i t')
  cases h
  case refresh k' i' h1 h2 =>
    by_cases ei : i = i'
    · subst ei; simp [upd] at hs; subst hs; exact hnow (by simp)
    · exact hold t (by simpa [upd, ei] using hs) (by simp)
  case record k' i' h1 h2 =>
    by_cases ei : i = i'
    · subst ei; simp [upd] at hs; subst hs; exact hnow (by simp)
    · exact hold t (by simpa [upd, ei] using hs) (by simp)
  case prunes i' t0 h1 h2 h3 =>
    by_cases ei : i = i'
    · subst ei; simp [upd] at hs
    · exact hold t (by simpa [upd, ei] using hs) (by simp)
  case answerYes k' i' h1 =>
    -- either the new event is the answer, or it was answered before
    rcases List.eq_nil_or_concat l2 with rfl | ⟨l3, y, rfl⟩
    · simp at hv
    · rw [List.concat_eq_append, ← List.append_assoc] at e
      have := List.append_inj' e rfl
      simp at this
      rw [List.concat_eq_append] at hv
      rcases List.mem_append.1 hv with hv | hv
      · exact ht.times i t k t' l1 l3 hs this.1 ha ⟨τ, hv⟩
      · simp at hv
        have e2 := this.2.trans hv.symm
        simp at e2
        obtain ⟨rfl, rfl, -⟩ := e2
        exact ht.recent _ _ t t' h1 hs (by rw [this.1]; simp [ha])
  all_goals exact hold t hs (by simp)

theorem asked_mono {l l' : List Lbl} {i : String} (h : Asked l i) : Asked (l ++ l') i := by
  obtain ⟨k, t, h⟩ := h
  exact ⟨k, t, by simp [h]⟩

theorem tinv_step {c : Cfg} {l : List Lbl} {s s' : St} {x : Lbl} (hi : Inv s) (ht : TInv c l s) (h : Step c s x s') :
    TInv c (l ++ [x]) s' := by
  have hheld := held_step ht h
  have htimes := times_step ht h
  obtain ⟨held, past, asked, waits, recent, times⟩ := ht
  have hw := hi.who
  refine ⟨hheld, ?_, ?_, ?_, ?_, htimes⟩
  · intro k i t hm
    rcases List.mem_append.1 hm with hm | hm
    · have := past k i t hm
      cases h <;> first | exact this | (show t ≤ s.now + 1; omega)
    · simp at hm; subst hm; cases h; exact Nat.le_refl _
  · intro i hne
    have old : s.images i ≠ none → Asked (l ++ [x]) i := fun h => asked_mono (asked i h)
    cases h <;> first | exact old hne | skip
    case refresh k j h1 h2 =>
      by_cases e : i = j
      · subst e; exact asked_mono (waits k i (hw k i (by simp [h1, Puller.who])))
      · exact old (by simpa [upd, e] using hne)
    case record k j h1 h2 =>
      by_cases e : i = j
      · subst e; exact asked_mono (waits k i (hw k i (by simp [h1, Puller.who])))
      · exact old (by simpa [upd, e] using hne)
    case prunes j t0 h1 h2 h3 =>
      by_cases e : i = j
      · subst e; simp [upd] at hne
      · exact old (by simpa [upd, e] using hne)
  · intro k i hp
    have old : s.pc k = .waiting i → Asked (l ++ [x]) i := fun h => asked_mono (waits k i h)
    cases h <;> first | exact old hp | skip
    case ask k' i' h1 =>
      by_cases e : k = k'
      · subst e; simp [upd] at hp; subst hp; exact ⟨k, s.now, by simp⟩
      · exact old (by simpa [upd, e] using hp)
    all_goals
      simp only [upd] at hp
      split at hp
      · simp at hp
      · exact old hp
  · intro k i t t' hp hs hm
    have hold : .asked k i t' ∈ l ∨ x = .asked k i t' := by
      rcases List.mem_append.1 hm with h | h
      · exact .inl h
      · simp at h; exact .inr h.symm
    cases h
    case ask k' i' h1 =>
      have hp' : s.puller = .answer k i true := hp
      rcases hold with hold | hold
      · exact recent k i t t' hp' hs hold
      · simp at hold
        have := hw k i (by simp [hp', Puller.who])
        rw [← hold.1, h1] at this
        simp at this
    case refresh k' i' h1 h2 =>
      simp at hp
      obtain ⟨rfl, rfl⟩ := hp
      simp [upd] at hs; subst hs
      rcases hold with hold | hold
      · exact past _ _ _ hold
      · simp at hold
    case record k' i' h1 h2 =>
      simp at hp
      obtain ⟨rfl, rfl⟩ := hp
      simp [upd] at hs; subst hs
      rcases hold with hold | hold
      · exact past _ _ _ hold
      · simp at hold
    case prunes j t0 h1 h2 h3 =>
      have hp' : s.puller = .answer k i true := hp
      have := hi.loop h1 k
      rw [hw k i (by simp [hp', Puller.who])] at this
      simp [Pc.live] at this
    all_goals first
      | (rcases hold with hold | hold
         · exact recent k i t t' hp hs hold
         · simp at hold)
      | simp [afterPull] at hp
    all_goals (split at hp <;> simp at hp)

theorem tinv_trace {c : Cfg} {l : List Lbl} {s : St} (h : Trace c l s) : TInv c l s := by
  induction h with
  | start p => exact tinv_init c p
  | step l s s' x hp hs ih => exact tinv_step (inv_trace hp) ih hs

theorem trace_last {c : Cfg} {l l' : List Lbl} {x : Lbl} {s' : St} (h : Trace c l' s') (e : l' = l ++ [x]) :
    ∃ s, Trace c l s ∧ Step c s x s' := by
  cases h with
  | start p => simp at e
  | step l0 s _ y hp hs =>
    have := List.append_inj' e rfl
    simp at this
    obtain ⟨rfl, rfl⟩ := this
    exact ⟨s, hp, hs⟩

/-! ## Theorems -/

/-- **C62 (in use).** The runtime removes an image, whether to prune it or after a failed verification, only after every task that was told
that the image is available has finished. -/
theorem C62_in_use_kept (c : Cfg) (l : List Lbl) (s : St) (i : String) (x : Lbl) (h : Trace c (l ++ [x]) s) (hx : Removes i x)
    (k : Nat) : ¬ Uses l k i := by
  rintro ⟨l1, l2, t, e, hf⟩
  obtain ⟨s0, h0, hs⟩ := trace_last h rfl
  have hm := (tinv_trace h0).held k i l1 l2 t e hf
  have hv := inv_trace h0
  have := hv.hold k i hm
  rcases hx with rfl | ⟨τ, rfl⟩
  · cases hs with
    | drops k' _ b h1 => exact this.2 (hv.fresh i (by simp [h1, Puller.fresh]))
  · cases hs with
    | prunes _ t0 h1 h2 h3 => rw [hv.loop h1 k] at this; simp at this

/-- **C62 (pruning).** An image is pruned only when more than the configured time has passed since every request for it that was
answered, and only after the tasks that asked have finished. -/
theorem C62_prunes_expired (c : Cfg) (l1 l2 l3 : List Lbl) (s : St) (i : String) (k t t' τ : Nat)
    (h : Trace c (l1 ++ .asked k i t :: l2 ++ .served k i t' :: l3 ++ [.pruned i τ]) s) :
    τ - t > c.ttl ∧ .finished k ∈ l3 := by
  obtain ⟨s0, h0, hs⟩ := trace_last h rfl
  constructor
  · cases hs with
    | prunes _ t0 h1 h2 h3 =>
      have := (tinv_trace h0).times i t0 k t (l1 ++ .asked k i t :: l2) (.served k i t' :: l3) h2 rfl (by simp) ⟨t', by simp⟩
      omega
  · refine Classical.byContradiction fun hc => ?_
    exact C62_in_use_kept c _ s i _ h (.inr ⟨_, rfl⟩) k ⟨l1 ++ .asked k i t :: l2, l3, t', rfl, hc⟩

/-- **C62 (verification).** With verification on, an image is handed out only after a successful verification, with no removal since. -/
theorem C62_verified (c : Cfg) (l : List Lbl) (s : St) (i : String) (k t : Nat) (hv : c.verify = true)
    (h : Trace c (l ++ [.served k i t]) s) :
    ∃ l1 l2, l = l1 ++ .verified i :: l2 ∧ ∀ x ∈ l2, ¬ Removes i x := by
  have key : ∀ l s, Trace c l s →
      (∀ i, s.images i ≠ none → ∃ l1 l2, l = l1 ++ .verified i :: l2 ∧ ∀ x ∈ l2, ¬ Removes i x) ∧
      (∀ k i, s.puller = .record k i → ∃ l1 l2, l = l1 ++ .verified i :: l2 ∧ ∀ x ∈ l2, ¬ Removes i x) := by
    intro l s h
    induction h with
    | start p => simp [init]
    | step l s s' x hp hs ih =>
      obtain ⟨ih1, ih2⟩ := ih
      have hinv := inv_trace hp
      have ext : ∀ i, ¬ Removes i x → (∃ l1 l2, l = l1 ++ .verified i :: l2 ∧ ∀ x ∈ l2, ¬ Removes i x) →
          ∃ l1 l2, l ++ [x] = l1 ++ .verified i :: l2 ∧ ∀ x ∈ l2, ¬ Removes i x := by
        rintro i hx ⟨l1, l2, rfl, h2⟩
        refine ⟨l1, l2 ++ [x], by simp, ?_⟩
        intro y hy
        rcases List.mem_append.1 hy with hy | hy
        · exact h2 y hy
        · simp at hy; subst hy; exact hx
      cases hs
      case prunes j t0 h1 h2 h3 =>
        constructor
        · intro i hne
          by_cases e : i = j
          · subst e; simp [upd] at hne
          · exact ext i (by simp [Removes, Ne.symm e]) (ih1 i (by simpa [upd, e] using hne))
        · intro k i hr
          have hr' : s.puller = .record k i := hr
          have := hinv.loop h1 k
          rw [hinv.who k i (by simp [hr', Puller.who])] at this
          simp [Pc.live] at this
      case drops k j b h1 =>
        constructor
        · intro i hne
          have : i ≠ j := by
            rintro rfl
            exact hne (hinv.fresh i (by simp [h1, Puller.fresh]))
          exact ext i (by simp [Removes, Ne.symm this]) (ih1 i hne)
        · intro k' i hr; simp at hr
      case verifies k j h1 =>
        constructor
        · intro i hne; exact ext i (by simp [Removes]) (ih1 i hne)
        · intro k' i hr
          simp at hr
          obtain ⟨rfl, rfl⟩ := hr
          exact ⟨l, [], rfl, by simp⟩
      case refresh k j h1 h2 =>
        constructor
        · intro i hne
          refine ext i (by simp [Removes]) (ih1 i ?_)
          by_cases e : i = j
          · subst e; exact hinv.got i (by simp [h1, Puller.got])
          · simpa [upd, e] using hne
        · intro k' i hr; simp at hr
      case record k j h1 h2 =>
        constructor
        · intro i hne
          by_cases e : i = j
          · subst e; exact ext i (by simp [Removes]) (ih2 k i h1)
          · exact ext i (by simp [Removes]) (ih1 i (by simpa [upd, e] using hne))
        · intro k' i hr; simp at hr
      all_goals
        constructor
        · intro i hne; exact ext i (by simp [Removes]) (ih1 i hne)
        · intro k' i hr
          first
            | exact ext i (by simp [Removes]) (ih2 k' i hr)
            | simp [afterPull, hv] at hr
  obtain ⟨s0, h0, hs⟩ := trace_last h rfl
  cases hs with
  | answerYes _ _ h1 => exact (key l s0 h0).1 i ((inv_trace h0).got i (by simp [h1, Puller.got]))

/-- **C62 (available).** As long as no two names for the same image are asked for, the daemon has every image that a task was told is
available and that has not finished. -/
theorem C62_available (c : Cfg) (l : List Lbl) (s : St) (k : Nat) (i : String) (h : Trace c l s)
    (hc : ∀ a b, Asked l a → Asked l b → c.canon a = c.canon b → a = b) (hu : Uses l k i) : s.present (c.canon i) = true := by
  have key : ∀ l s, Trace c l s → (∀ a b, Asked l a → Asked l b → c.canon a = c.canon b → a = b) →
      (∀ i, s.images i ≠ none → s.present (c.canon i) = true) ∧
      (∀ k i, s.puller = .record k i ∨ s.puller = .verify k i → s.present (c.canon i) = true) := by
    intro l s h
    induction h with
    | start p => simp [init]
    | step l s s' x hp hs ih =>
      intro hc
      obtain ⟨ih1, ih2⟩ := ih fun a b ha hb => hc a b (asked_mono ha) (asked_mono hb)
      have hinv := inv_trace hp
      have ht := tinv_trace hp
      cases hs
      case prunes j t0 h1 h2 h3 =>
        constructor
        · intro i hne
          by_cases e : i = j
          · subst e; simp [upd] at hne
          · have hi : s.images i ≠ none := by simpa [upd, e] using hne
            have : c.canon i ≠ c.canon j := fun h =>
              e (hc i j (asked_mono (ht.asked i hi)) (asked_mono (ht.asked j (by simp [h2]))) h)
            simpa [upd, this] using ih1 i hi
        · intro k i hr
          have hr' : s.puller = .record k i ∨ s.puller = .verify k i := hr
          have := hinv.loop h1 k
          rw [hinv.who k i (by rcases hr' with h | h <;> simp [h, Puller.who])] at this
          simp [Pc.live] at this
      case drops k j b h1 =>
        constructor
        · intro i hne
          have hi : s.images i ≠ none := hne
          have hij : i ≠ j := by
            rintro rfl
            exact hne (hinv.fresh i (by simp [h1, Puller.fresh]))
          have hj : Asked l j := ht.waits k j (hinv.who k j (by simp [h1, Puller.who]))
          have : c.canon i ≠ c.canon j := fun h =>
            hij (hc i j (asked_mono (ht.asked i hi)) (asked_mono hj) h)
          simpa [upd, this] using ih1 i hi
        · intro k' i hr; simp at hr
      case refresh k j h1 h2 =>
        constructor
        · intro i hne
          by_cases e : i = j
          · subst e; exact ih1 i (hinv.got i (by simp [h1, Puller.got]))
          · exact ih1 i (by simpa [upd, e] using hne)
        · intro k' i hr; simp at hr
      case record k j h1 h2 =>
        constructor
        · intro i hne
          by_cases e : i = j
          · subst e; exact ih2 k i (.inl h1)
          · exact ih1 i (by simpa [upd, e] using hne)
        · intro k' i hr; simp at hr
      case pullFails k j b h1 =>
        constructor
        · intro i hne
          have := ih1 i hne
          by_cases e : c.canon i = c.canon j <;> simp_all [upd]
        · intro k' i hr; simp at hr
      case pulls k j h1 =>
        constructor
        · intro i hne
          have := ih1 i hne
          by_cases e : c.canon i = c.canon j <;> simp_all [upd]
        · intro k' i hr
          have : i = j := by
            simp only [afterPull] at hr
            split at hr <;> simp at hr <;> exact hr.2.symm
          subst this; simp [upd]
      case checkYes k j h1 h2 =>
        refine ⟨ih1, ?_⟩
        intro k' i hr
        have : i = j := by
          simp only [afterPull] at hr
          split at hr <;> simp at hr <;> exact hr.2.symm
        subst this; simpa [h2.1] using h2.2
      case verifies k j h1 =>
        refine ⟨ih1, ?_⟩
        intro k' i hr
        simp at hr
        obtain ⟨rfl, rfl⟩ := hr
        exact ih2 k j (.inr h1)
      all_goals
        refine ⟨ih1, ?_⟩
        intro k' i hr
        first
          | exact ih2 k' i hr
          | simp at hr
  obtain ⟨l1, l2, t, e, hf⟩ := hu
  exact (key l s h hc).1 i ((inv_trace h).hold k i ((tinv_trace h).held k i l1 l2 t e hf)).2

/-! ## Examples and a defect -/

/-- Docker's default tag -/
def exCanon (i : String) : String := if i = "busybox" then "busybox:latest" else i

def exCfg (verify : Bool) : Cfg := { ttl := 5, verify := verify, canon := exCanon }

theorem Trace.and {c : Cfg} {l : List Lbl} {s s' : St} {x : Lbl} (h : Trace c l s) (hs : Step c s x s') : Trace c (l ++ [x]) s' :=
  .step _ _ _ _ h hs

/-- A task asks for an image, which is pulled, verified and handed out. -/
theorem exServed : ∃ l s, Trace (exCfg true) (l ++ [.served 0 "busybox" 0]) s := by
  have t := (Trace.start (c := exCfg true) fun _ => false).and (.begin _ 0 rfl rfl)
  have t := t.and (.ask _ 0 "busybox" rfl)
  have t := t.and (.take _ 0 "busybox" rfl rfl)
  have t := t.and (.miss _ 0 "busybox" rfl rfl rfl)
  have t := t.and (.checkNo _ 0 "busybox" rfl (fun h => absurd h.1 (by decide)))
  have t := t.and (.pulls _ 0 "busybox" rfl)
  have t := t.and (.verifies _ 0 "busybox" rfl)
  have t := t.and (.record _ 0 "busybox" rfl rfl)
  exact ⟨_, _, t.and (.answerYes _ 0 "busybox" rfl)⟩

example : ∃ l : List Lbl, .verified "busybox" ∈ l := by
  obtain ⟨l, s, h⟩ := exServed
  obtain ⟨l1, l2, e, -⟩ := C62_verified _ l s "busybox" 0 0 rfl h
  exact ⟨l, by simp [e]⟩

/-- An image the daemon already has is handed out without a pull, the task finishes, time passes, the image is pruned. -/
example : ∃ l1 l2 l3 s, Trace (exCfg false) (l1 ++ .asked 0 "busybox:latest" 0 :: l2 ++
    .served 0 "busybox:latest" 0 :: l3 ++ [.pruned "busybox:latest" 6]) s := by
  have t := (Trace.start (c := exCfg false) fun _ => true).and (.begin _ 0 rfl rfl)
  have t := t.and (.ask _ 0 "busybox:latest" rfl)
  have t := t.and (.take _ 0 "busybox:latest" rfl rfl)
  have t := t.and (.miss _ 0 "busybox:latest" rfl rfl rfl)
  have t := t.and (.checkYes _ 0 "busybox:latest" rfl ⟨rfl, rfl⟩)
  have t := t.and (.record _ 0 "busybox:latest" rfl rfl)
  have t := t.and (.answerYes _ 0 "busybox:latest" rfl)
  have t := t.and (.finish _ 0 rfl rfl)
  have t := ((((((t.and (.tick _)).and (.tick _)).and (.tick _)).and (.tick _)).and (.tick _)).and (.tick _))
  have t := t.and (.lock _ rfl)
  have t := t.and (.quiet _ rfl (by decide))
  have t := t.and (.prunes _ "busybox:latest" 0 rfl rfl (by decide))
  exact ⟨[.tau], [.tau, .tau, .tau, .tau], [.finished 0, .tau, .tau, .tau, .tau, .tau, .tau, .tau, .tau], _, t⟩

/-- **C62 (defect).** An image has several names. The runtime does not know: when the verification under one name fails (for example because
the task that asked was cancelled), it removes the image although another task uses it under another name. -/
theorem C62_alias : ∃ (c : Cfg) (l : List Lbl) (s : St) (k : Nat) (i : String),
    Trace c l s ∧ Uses l k i ∧ s.present (c.canon i) = false := by
  have t := (Trace.start (c := exCfg true) fun _ => false).and (.begin _ 0 rfl rfl)
  have t := t.and (.ask _ 0 "busybox:latest" rfl)
  have t := t.and (.take _ 0 "busybox:latest" rfl rfl)
  have t := t.and (.miss _ 0 "busybox:latest" rfl rfl rfl)
  have t := t.and (.checkNo _ 0 "busybox:latest" rfl (fun h => nomatch h.2))
  have t := t.and (.pulls _ 0 "busybox:latest" rfl)
  have t := t.and (.verifies _ 0 "busybox:latest" rfl)
  have t := t.and (.record _ 0 "busybox:latest" rfl rfl)
  have t := t.and (.answerYes _ 0 "busybox:latest" rfl)
  have t := t.and (.begin _ 1 rfl rfl)
  have t := t.and (.ask _ 1 "busybox" rfl)
  have t := t.and (.take _ 1 "busybox" rfl rfl)
  have t := t.and (.miss _ 1 "busybox" rfl rfl rfl)
  have t := t.and (.checkNo _ 1 "busybox" rfl (fun h => absurd h.1 (by decide)))
  have t := t.and (.pulls _ 1 "busybox" rfl)
  have t := t.and (.verifyFails _ 1 "busybox" rfl)
  have t := t.and (.drops _ 1 "busybox" false rfl)
  refine ⟨_, _, _, 0, "busybox:latest", t, ?_, rfl⟩
  exact ⟨[.tau, .asked 0 "busybox:latest" 0, .tau, .tau, .tau, .pulled "busybox:latest", .verified "busybox:latest", .tau],
    [.tau, .asked 1 "busybox" 0, .tau, .tau, .tau, .pulled "busybox", .tau, .dropped "busybox"], 0, rfl, by decide⟩

/-- **C62 (defect).** An image that was removed behind the runtime's back (here by pruning another name of it) is handed out again and
again without being there: a recorded image is never looked up. -/
theorem C62_stale : ∃ (c : Cfg) (l : List Lbl) (s : St) (k : Nat) (i : String) (t : Nat),
    Trace c (l ++ [.served k i t]) s ∧ s.present (c.canon i) = false := by
  have t := (Trace.start (c := exCfg false) fun _ => true).and (.begin _ 0 rfl rfl)
  have t := t.and (.ask _ 0 "busybox" rfl)
  have t := t.and (.take _ 0 "busybox" rfl rfl)
  have t := t.and (.miss _ 0 "busybox" rfl rfl rfl)
  have t := t.and (.checkNo _ 0 "busybox" rfl (fun h => absurd h.1 (by decide)))
  have t := t.and (.pulls _ 0 "busybox" rfl)
  have t := t.and (.record _ 0 "busybox" rfl rfl)
  have t := t.and (.answerYes _ 0 "busybox" rfl)
  have t := t.and (.finish _ 0 rfl rfl)
  have t := ((((((t.and (.tick _)).and (.tick _)).and (.tick _)).and (.tick _)).and (.tick _)).and (.tick _))
  have t := t.and (.begin _ 1 rfl rfl)
  have t := t.and (.ask _ 1 "busybox:latest" rfl)
  have t := t.and (.take _ 1 "busybox:latest" rfl rfl)
  have t := t.and (.miss _ 1 "busybox:latest" rfl rfl rfl)
  have t := t.and (.checkYes _ 1 "busybox:latest" rfl ⟨rfl, rfl⟩)
  have t := t.and (.record _ 1 "busybox:latest" rfl rfl)
  have t := t.and (.answerYes _ 1 "busybox:latest" rfl)
  have t := t.and (.finish _ 1 rfl rfl)
  have t := t.and (.lock _ rfl)
  have t := t.and (.quiet _ rfl (by decide))
  have t := t.and (.prunes _ "busybox" 0 rfl rfl (by decide))
  have t := t.and (.unlock _ rfl)
  have t := t.and (.begin _ 2 rfl rfl)
  have t := t.and (.ask _ 2 "busybox:latest" rfl)
  have t := t.and (.take _ 2 "busybox:latest" rfl rfl)
  have t := t.and (.hit _ 2 "busybox:latest" 6 rfl rfl rfl)
  have t := t.and (.refresh _ 2 "busybox:latest" rfl rfl)
  exact ⟨_, _, _, 2, "busybox:latest", 6, t.and (.answerYes _ 2 "busybox:latest" rfl), rfl⟩

end Tork.Images
