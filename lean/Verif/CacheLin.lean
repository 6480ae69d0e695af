import Verif.CacheConc
/-!
# The order in which calls of the cache take effect

A call that holds an entry which has left the map takes effect just before the act that removed the entry.
-/

namespace Tork.CacheConc
open Cache (Item)

variable {V : Type} {de : Int}

/-- An act with the number of the step at which it takes effect. -/
abbrev Lin (V : Type) := List (Nat × Act V)

def after (de : Int) (a : Abs V) : Lin V → Abs V
  | [] => a
  | e :: l => after de (e.2.next de a) l

/-- Every answer is the one of the sequential cache. -/
def Right (de : Int) (a : Abs V) : Lin V → Prop
  | [] => True
  | e :: l => e.2.right de a ∧ Right de (e.2.next de a) l

/-- Clean-up removes expired entries only. -/
def DropsExpired (de : Int) (a : Abs V) : Lin V → Prop
  | [] => True
  | e :: l => (∀ p k now, e.2 = .drop p k now → ∃ x, a k = some x ∧ x.expired now = true) ∧ DropsExpired de (e.2.next de a) l

theorem content_eq (a : Abs V) (L : Lin V) : content de a (L.map (·.2)) = after de a L := by
  induction L generalizing a with
  | nil => rfl
  | cons e l ih => exact ih _

theorem answers_eq (a : Abs V) (L : Lin V) : Answers de a (L.map (·.2)) ↔ Right de a L := by
  induction L generalizing a with
  | nil => exact Iff.rfl
  | cons e l ih => exact and_congr_right fun _ => ih _

theorem removes_eq (a : Abs V) (L : Lin V) : RemovesExpired de a (L.map (·.2)) ↔ DropsExpired de a L := by
  induction L generalizing a with
  | nil => exact Iff.rfl
  | cons e l ih => exact and_congr_right fun _ => ih _

theorem upd_same {A B : Type} [DecidableEq A] (f : A → B) (a : A) (b : B) : upd f a b a = b := if_pos rfl
theorem upd_other {A B : Type} [DecidableEq A] (f : A → B) {a x : A} (b : B) (h : x ≠ a) : upd f a b x = f x := if_neg h
theorem upd_self {A B : Type} [DecidableEq A] (f : A → B) (a : A) : upd f a (f a) = f := by
  funext x; unfold upd; split <;> simp_all

/-- Which `Set` call made the entry of a key. -/
def Act.own (o : String → Option Nat) : Act V → String → Option Nat
  | .call p (.set k _ _) _ _ => upd o k (some p)
  | .call _ (.delete k) _ _ => upd o k none
  | .call _ .flush _ _ => fun _ => none
  | .drop _ k _ => upd o k none
  | _ => o

def owner (o : String → Option Nat) : Lin V → String → Option Nat
  | [] => o
  | e :: l => owner (e.2.own o) l

/-- The act replaces or removes whatever is at `k`. -/
def Act.wipes (k : String) : Act V → Prop
  | .call _ (.set k' _ _) _ _ => k' = k
  | .call _ (.delete k') _ _ => k' = k
  | .call _ .flush _ _ => True
  | .drop _ k' _ => k' = k
  | _ => False

/-- The key of a call that looks an entry up. -/
def Call.key : Call V → Option String
  | .get k | .setExp k _ | .modify k _ => some k
  | _ => none

theorem after_append (a : Abs V) (l m : Lin V) : after de a (l ++ m) = after de (after de a l) m := by
  induction l generalizing a with
  | nil => rfl
  | cons e l ih => exact ih _

theorem owner_append (o : String → Option Nat) (l m : Lin V) : owner o (l ++ m) = owner (owner o l) m := by
  induction l generalizing o with
  | nil => rfl
  | cons e l ih => exact ih _

theorem right_append (a : Abs V) (l m : Lin V) : Right de a (l ++ m) ↔ Right de a l ∧ Right de (after de a l) m := by
  induction l generalizing a with
  | nil => simp [Right, after]
  | cons e l ih => simp [Right, after, ih, and_assoc]

theorem drops_append (a : Abs V) (l m : Lin V) : DropsExpired de a (l ++ m) ↔ DropsExpired de a l ∧ DropsExpired de (after de a l) m := by
  induction l generalizing a with
  | nil => simp [DropsExpired, after]
  | cons e l ih => simp [DropsExpired, after, ih, and_assoc]

theorem wipes_next {k : String} {x : Act V} (h : x.wipes k) (a : Abs V) (y : Option (Item V)) : x.next de (upd a k y) = x.next de a := by
  have h2 : ∀ z, upd (upd a k y) k z = upd a k z := fun z => by funext q; unfold upd; split <;> rfl
  rcases x with ⟨p, c, now, r⟩ | ⟨p, k', now⟩
  · cases c <;> simp only [Act.wipes] at h <;> try subst h
    · exact h2 _
    · exact h2 _
    · rfl
  · simp only [Act.wipes] at h
    subst h
    exact h2 _

theorem wipes_right {k : String} {x : Act V} (h : x.wipes k) (a : Abs V) (y : Option (Item V)) : x.right de (upd a k y) ↔ x.right de a := by
  rcases x with ⟨p, c, now, r⟩ | ⟨p, k', now⟩
  · cases c <;> simp only [Act.wipes] at h <;> exact Iff.rfl
  · exact Iff.rfl

/-- The acts up to now, in the order in which they take effect. -/
structure Inv (de : Int) (s : S V) (L : Lin V) : Prop where
  right : Right de empty L
  abs : after de empty L = s.abs
  own : owner (fun _ => none) L = s.map
  sorted : L.Pairwise (·.1 ≤ ·.1)
  bound : ∀ e ∈ L, e.1 < s.n
  calls : ∀ b p c now r, (b, Act.call p c now r) ∈ L → ∃ t u, s.pc p = .ended c t u now r ∧ t.n ≤ b ∧ b ≤ u.n
  ended : ∀ p c t u now r, s.pc p = .ended c t u now r → ∃ b, (b, Act.call p c now r) ∈ L
  once : (L.filterMap (·.2.caller)).Nodup
  entry : ∀ k i, s.map k = some i → ∃ x, s.heap i = some (k, x)
  made : ∀ i k x, s.heap i = some (k, x) → ∃ c t u now r, s.pc i = .ended c t u now r
  holder : ∀ p c t now i, s.pc p = .holds c t now i → ∃ k x, c.key = some k ∧ s.heap i = some (k, x)
  start : ∀ p t, (s.pc p).start = some t → t.n < s.n
  gone : ∀ i k x, s.heap i = some (k, x) → s.map k ≠ some i → ∃ A e B, L = A ++ e :: B ∧ after de empty A k = some x ∧
    owner (fun _ => none) A k = some i ∧ e.2.wipes k ∧ ∀ p c t now, s.pc p = .holds c t now i → t.n ≤ e.1
  drops : s.NoExp → DropsExpired de empty L
  sweeps : ∀ b p k now, (b, Act.drop p k now) ∈ L → ∃ t, (s.pc p).Cleans t now ∧ t.n ≤ b ∧ ∀ u, (s.pc p).finish = some u → b ≤ u.n

theorem inv_init : Inv de ({} : S V) [] where
  right := trivial
  abs := rfl
  own := rfl
  sorted := .nil
  bound := by simp
  calls := by simp
  ended p c t u now r h := nomatch h
  once := List.nodup_nil
  entry k i h := nomatch h
  made i k x h := nomatch h
  holder p c t now i h := nomatch h
  start p t h := nomatch h
  gone i k x h := nomatch h
  drops _ := trivial
  sweeps b p k now h := nomatch h

/-- A call goes on without an effect. -/
theorem Inv.move {s s' : S V} {L : Lin V} (h : Inv de s L) (p : Nat) (z : Pc V) (hm : s'.map = s.map) (hh : s'.heap = s.heap)
    (hn : s'.n = s.n + 1) (hp : s'.pc = upd s.pc p z) (hold : ∀ c t u now r, s.pc p ≠ .ended c t u now r)
    (hnew : ∀ c t u now r, z ≠ .ended c t u now r) (hst : ∀ t, z.start = some t → t.n < s.n + 1)
    (hhold : ∀ c t now i, z = .holds c t now i → ∃ k, c.key = some k ∧ s.map k = some i)
    (hcall : ∀ c, (s.pc p).callOf = some c → z.callOf = some c)
    (hsweep : ∀ t now l, s.pc p = .sweeping t now l → ∃ l', z = .sweeping t now l') : Inv de s' L where
  sweeps b q k now hb := by
    obtain ⟨t, h1, h2, h3⟩ := h.sweeps b q k now hb
    rw [hp]
    by_cases e : q = p
    · subst e
      rw [upd_same]
      rcases h1 with ⟨l, h1⟩ | ⟨u, r, h1⟩
      · obtain ⟨l', hz⟩ := hsweep _ _ _ h1
        exact ⟨t, .inl ⟨l', hz⟩, h2, by rw [hz]; nofun⟩
      · exact absurd h1 (hold _ _ _ _ _)
    · rw [upd_other _ _ e]; exact ⟨t, h1, h2, h3⟩
  right := h.right
  abs := by rw [h.abs]; unfold S.abs; rw [hm, hh]
  own := by rw [h.own, hm]
  sorted := h.sorted
  bound e he := by rw [hn]; exact Nat.lt_succ_of_lt (h.bound e he)
  calls b q c now r hb := by
    obtain ⟨t, u, h1, h2⟩ := h.calls b q c now r hb
    refine ⟨t, u, ?_, h2⟩
    rw [hp, upd_other _ _ (by rintro rfl; exact hold _ _ _ _ _ h1)]
    exact h1
  ended q c t u now r hq := by
    rw [hp] at hq
    by_cases e : q = p
    · subst e; rw [upd_same] at hq; exact absurd hq (hnew _ _ _ _ _)
    · rw [upd_other _ _ e] at hq; exact h.ended q c t u now r hq
  once := h.once
  entry k i hk := by rw [hh]; rw [hm] at hk; exact h.entry k i hk
  made i k x hi := by
    rw [hh] at hi
    obtain ⟨c, t, u, now, r, h1⟩ := h.made i k x hi
    refine ⟨c, t, u, now, r, ?_⟩
    rw [hp, upd_other _ _ (by rintro rfl; exact hold _ _ _ _ _ h1)]
    exact h1
  holder q c t now i hq := by
    rw [hh]
    rw [hp] at hq
    by_cases e : q = p
    · subst e; rw [upd_same] at hq
      obtain ⟨k, h1, h2⟩ := hhold _ _ _ _ hq
      obtain ⟨x, h3⟩ := h.entry k i h2
      exact ⟨k, x, h1, h3⟩
    · rw [upd_other _ _ e] at hq; exact h.holder q c t now i hq
  start q t hq := by
    rw [hn]
    rw [hp] at hq
    by_cases e : q = p
    · subst e; rw [upd_same] at hq; exact hst t hq
    · rw [upd_other _ _ e] at hq; exact Nat.lt_succ_of_lt (h.start q t hq)
  gone i k x hi hk := by
    rw [hh] at hi
    rw [hm] at hk
    obtain ⟨A, e, B, h1, h2, h3, h4, h5⟩ := h.gone i k x hi hk
    refine ⟨A, e, B, h1, h2, h3, h4, fun q c t now hq => ?_⟩
    rw [hp] at hq
    by_cases e : q = p
    · subst e; rw [upd_same] at hq
      obtain ⟨k', g1, g2⟩ := hhold _ _ _ _ hq
      obtain ⟨y, g3⟩ := h.entry k' i g2
      rw [hi] at g3; cases g3
      exact absurd g2 hk
    · rw [upd_other _ _ e] at hq; exact h5 q c t now hq
  drops hx := h.drops fun q c hq k d hc => by
    by_cases e : q = p
    · subst e
      exact hx q c (by rw [hp, upd_same]; exact hcall c hq) k d hc
    · exact hx q c (by rw [hp, upd_other _ _ e]; exact hq) k d hc

/-- A call takes effect now, or clean-up removes an entry. -/
theorem Inv.act {s s' : S V} {L : Lin V} (h : Inv de s L) (p : Nat) (z : Pc V) (x : Act V)
    (hn : s'.n = s.n + 1) (hp : s'.pc = upd s.pc p z) (hold : ∀ c t u now r, s.pc p ≠ .ended c t u now r)
    (hz : (∃ c t now r, x = .call p c now r ∧ z = .ended c t s.now now r ∧ t.n ≤ s.n) ∨
      ∃ k now t l, x = .drop p k now ∧ z = .sweeping t now l ∧ t.n < s.n + 1)
    (hheap : ∀ i y, s.heap i = some y → s'.heap i = some y)
    (hheap' : ∀ i k y, s'.heap i = some (k, y) → s.heap i = some (k, y) ∨ i = p ∧ s'.map k = some p ∧ s.heap p = none ∧ x.caller = some p)
    (hmap : ∀ k, s'.map k = s.map k ∨ x.wipes k)
    (hentry : ∀ k i, s'.map k = some i → s.map k = some i ∨ ∃ y, s'.heap i = some (k, y))
    (habs : x.next de s.abs = s'.abs) (hown : x.own s.map = s'.map) (hright : x.right de s.abs)
    (hdrop : ∀ q k now, x = .drop q k now → ∃ y, s.abs k = some y ∧ y.expired now = true)
    (hcall : ∀ c, (s.pc p).callOf = some c → z.callOf = some c)
    (hdp : ∀ q k now, x = .drop q k now → q = p ∧ ∃ t l, z = .sweeping t now l ∧ t.n ≤ s.n)
    (hsweep : ∀ t now l, s.pc p = .sweeping t now l → z.Cleans t now) : Inv de s' (L ++ [(s.n, x)]) where
  sweeps b q k now hb := by
    rw [hp]
    rcases List.mem_append.1 hb with hb | hb
    · obtain ⟨t, h1, h2, h3⟩ := h.sweeps b q k now hb
      by_cases e : q = p
      · subst e
        rw [upd_same]
        rcases h1 with ⟨l, h1⟩ | ⟨u, r, h1⟩
        · refine ⟨t, hsweep _ _ _ h1, h2, fun u hu => ?_⟩
          have := h.bound _ hb
          rcases hz with ⟨c', t', now', r', -, g2, -⟩ | ⟨_, _, _, _, -, g2, -⟩
          · rw [g2] at hu; cases hu; exact Nat.le_of_lt this
          · rw [g2] at hu; cases hu
        · exact absurd h1 (hold _ _ _ _ _)
      · rw [upd_other _ _ e]; exact ⟨t, h1, h2, h3⟩
    · cases List.mem_singleton.1 hb
      obtain ⟨rfl, t, l, hz', ht⟩ := hdp _ _ _ rfl
      rw [upd_same, hz']
      exact ⟨t, .inl ⟨l, rfl⟩, ht, nofun⟩
  right := (right_append _ _ _).2 ⟨h.right, by rw [h.abs]; exact ⟨hright, trivial⟩⟩
  abs := by rw [after_append, h.abs]; exact habs
  own := by rw [owner_append, h.own]; exact hown
  sorted := List.pairwise_append.2 ⟨h.sorted, List.pairwise_singleton _ _, fun a ha b hb => by
    rw [List.mem_singleton.1 hb]; exact Nat.le_of_lt (h.bound a ha)⟩
  bound e he := by
    rw [hn]
    rcases List.mem_append.1 he with he | he
    · exact Nat.lt_succ_of_lt (h.bound e he)
    · rw [List.mem_singleton.1 he]; exact Nat.lt_succ_self _
  calls b q c now r hb := by
    rcases List.mem_append.1 hb with hb | hb
    · obtain ⟨t, u, h1, h2⟩ := h.calls b q c now r hb
      refine ⟨t, u, ?_, h2⟩
      rw [hp, upd_other _ _ (by rintro rfl; exact hold _ _ _ _ _ h1)]
      exact h1
    · cases List.mem_singleton.1 hb
      rcases hz with ⟨c', t, now', r', h1, h2, h3⟩ | ⟨k, now', t, l, h1, h2, h3⟩
      · cases h1
        exact ⟨t, s.now, by rw [hp, upd_same]; exact h2, h3, Nat.le_refl _⟩
      · cases h1
  ended q c t u now r hq := by
    rw [hp] at hq
    by_cases e : q = p
    · subst e; rw [upd_same] at hq
      rcases hz with ⟨c', t', now', r', h1, h2, h3⟩ | ⟨k, now', t', l, h1, h2, h3⟩
      · rw [h2] at hq; cases hq
        exact ⟨s.n, List.mem_append_right _ (List.mem_singleton.2 (by rw [h1]))⟩
      · rw [h2] at hq; cases hq
    · rw [upd_other _ _ e] at hq
      obtain ⟨b, hb⟩ := h.ended q c t u now r hq
      exact ⟨b, List.mem_append_left _ hb⟩
  once := by
    rw [List.filterMap_append, List.nodup_append]
    refine ⟨h.once, ?_, ?_⟩
    · cases hx : x.caller <;> simp [hx]
    · intro a ha b hb
      rintro rfl
      simp only [List.filterMap_cons, List.filterMap_nil] at hb
      rcases hz with ⟨c', t', now', r', rfl, h2, h3⟩ | ⟨k, now', t', l, rfl, h2, h3⟩
      · simp only [Act.caller, List.mem_singleton] at hb
        subst hb
        obtain ⟨⟨b, y⟩, h4, h5⟩ := List.mem_filterMap.1 ha
        rcases y with ⟨q, c, now, r⟩ | _
        · cases h5
          obtain ⟨t, u, h6, _⟩ := h.calls _ _ _ _ _ h4
          exact hold _ _ _ _ _ h6
        · cases h5
      · simp [Act.caller] at hb
  entry k i hk := by
    rcases hentry k i hk with h1 | h1
    · obtain ⟨y, hy⟩ := h.entry k i h1
      exact ⟨y, hheap _ _ hy⟩
    · exact h1
  made i k y hi := by
    rcases hheap' i k y hi with hi | ⟨rfl, -, -, hi⟩
    · obtain ⟨c, t, u, now, r, h1⟩ := h.made i k y hi
      refine ⟨c, t, u, now, r, ?_⟩
      rw [hp, upd_other _ _ (by rintro rfl; exact hold _ _ _ _ _ h1)]
      exact h1
    · rcases hz with ⟨c', t', now', r', rfl, h2, h3⟩ | ⟨k, now', t', l, rfl, h2, h3⟩
      · exact ⟨c', t', _, now', r', by rw [hp, upd_same]; exact h2⟩
      · cases hi
  holder q c t now i hq := by
    rw [hp] at hq
    by_cases e : q = p
    · subst e; rw [upd_same] at hq
      rcases hz with ⟨c', t', now', r', h1, h2, h3⟩ | ⟨k, now', t', l, h1, h2, h3⟩ <;> (rw [h2] at hq; cases hq)
    · rw [upd_other _ _ e] at hq
      obtain ⟨k, y, h1, h2⟩ := h.holder q c t now i hq
      exact ⟨k, y, h1, hheap _ _ h2⟩
  start q t hq := by
    rw [hn]
    rw [hp] at hq
    by_cases e : q = p
    · subst e; rw [upd_same] at hq
      rcases hz with ⟨c', t', now', r', h1, h2, h3⟩ | ⟨k, now', t', l, h1, h2, h3⟩
      · rw [h2] at hq; cases hq; omega
      · rw [h2] at hq; cases hq; exact h3
    · rw [upd_other _ _ e] at hq; exact Nat.lt_succ_of_lt (h.start q t hq)
  gone i k y hi hk := by
    have hq : ∀ q c t now, s'.pc q = .holds c t now i → s.pc q = .holds c t now i := by
      intro q c t now hq
      rw [hp] at hq
      by_cases e : q = p
      · subst e; rw [upd_same] at hq
        rcases hz with ⟨c', t', now', r', h1, h2, h3⟩ | ⟨k, now', t', l, h1, h2, h3⟩ <;> (rw [h2] at hq; cases hq)
      · rw [upd_other _ _ e] at hq; exact hq
    rcases hheap' i k y hi with hi | ⟨rfl, h1, -, -⟩
    · by_cases hm : s.map k = some i
      · refine ⟨L, (s.n, x), [], rfl, ?_, by rw [h.own, hm], ?_, fun q c t now hh => ?_⟩
        · rw [h.abs]; simp only [S.abs, hm, Option.bind_some, hi, Option.map_some]
        · rcases hmap k with h2 | h2
          · rw [h2] at hk; exact absurd hm hk
          · exact h2
        · exact Nat.le_of_lt (h.start q t (by rw [hq q c t now hh]; rfl))
      · obtain ⟨A, e, B, h1, h2, h3, h4, h5⟩ := h.gone i k y hi hm
        exact ⟨A, e, B ++ [(s.n, x)], by rw [h1]; simp, h2, h3, h4, fun q c t now hh => h5 q c t now (hq _ _ _ _ hh)⟩
    · exact absurd h1 hk
  drops hx := by
    refine (drops_append _ _ _).2 ⟨h.drops fun q c hq k d hc => ?_, ?_⟩
    · by_cases e : q = p
      · subst e
        exact hx q c (by rw [hp, upd_same]; exact hcall c hq) k d hc
      · exact hx q c (by rw [hp, upd_other _ _ e]; exact hq) k d hc
    · rw [h.abs]
      exact ⟨fun q k now hd => hdrop q k now hd, trivial⟩

/-- A call that holds an entry takes effect, at some place in the order. -/
theorem Inv.call {s s' : S V} {L L' : Lin V} (h : Inv de s L) {p b : Nat} {c : Call V} {t : Moment} {now0 now : Int} {r : Answer V} {i : Nat}
    {q : String} {y y' : Item V} (hpc : s.pc p = .holds c t now0 i) (hi : s.heap i = some (q, y)) (hn : s'.n = s.n + 1) (hm : s'.map = s.map)
    (hp : s'.pc = upd s.pc p (.ended c t s.now now r)) (hh : s'.heap = upd s.heap i (some (q, y')))
    (hperm : L'.Perm ((b, .call p c now r) :: L)) (hb1 : t.n ≤ b) (hb2 : b ≤ s.n) (hr : Right de empty L') (ha : after de empty L' = s'.abs)
    (ho : owner (fun _ => none) L' = s'.map) (hs : L'.Pairwise (·.1 ≤ ·.1)) (hd : s'.NoExp → DropsExpired de empty L')
    (hg : ∀ i k x, s'.heap i = some (k, x) → s'.map k ≠ some i → ∃ A e B, L' = A ++ e :: B ∧ after de empty A k = some x ∧
      owner (fun _ => none) A k = some i ∧ e.2.wipes k ∧ ∀ p c t now, s.pc p = .holds c t now i → t.n ≤ e.1) : Inv de s' L' where
  right := hr
  abs := ha
  own := ho
  sorted := hs
  drops := hd
  sweeps a u k now' he := by
    rcases List.mem_cons.1 (hperm.mem_iff.1 he) with he | he
    · cases he
    · obtain ⟨t', h1, h2, h3⟩ := h.sweeps a u k now' he
      have : u ≠ p := by
        rintro rfl
        rcases h1 with ⟨l, h1⟩ | ⟨_, _, h1⟩ <;> (rw [hpc] at h1; cases h1)
      rw [hp, upd_other _ _ this]
      exact ⟨t', h1, h2, h3⟩
  bound e he := by
    rw [hn]
    rcases List.mem_cons.1 (hperm.mem_iff.1 he) with rfl | he
    · exact Nat.lt_succ_of_le hb2
    · exact Nat.lt_succ_of_lt (h.bound e he)
  calls a u c' now' r' he := by
    rcases List.mem_cons.1 (hperm.mem_iff.1 he) with he | he
    · cases he
      exact ⟨t, s.now, by rw [hp, upd_same], hb1, hb2⟩
    · obtain ⟨t', u', h1, h2⟩ := h.calls a u c' now' r' he
      refine ⟨t', u', ?_, h2⟩
      rw [hp, upd_other _ _ (by rintro rfl; rw [hpc] at h1; cases h1)]
      exact h1
  ended u c' t' u' now' r' hq := by
    rw [hp] at hq
    by_cases e : u = p
    · subst e; rw [upd_same] at hq; cases hq
      exact ⟨b, hperm.mem_iff.2 (List.mem_cons_self ..)⟩
    · rw [upd_other _ _ e] at hq
      obtain ⟨a, ha⟩ := h.ended u c' t' u' now' r' hq
      exact ⟨a, hperm.mem_iff.2 (List.mem_cons_of_mem _ ha)⟩
  once := by
    refine (hperm.filterMap _).nodup_iff.2 ?_
    show (p :: L.filterMap (·.2.caller)).Nodup
    refine List.nodup_cons.2 ⟨fun ha => ?_, h.once⟩
    obtain ⟨⟨b, y⟩, h4, h5⟩ := List.mem_filterMap.1 ha
    rcases y with ⟨q, c, now, r⟩ | _
    · cases h5
      obtain ⟨t, u, h6, _⟩ := h.calls _ _ _ _ _ h4
      rw [hpc] at h6; cases h6
    · cases h5
  entry k j hk := by
    rw [hm] at hk
    obtain ⟨x, hx⟩ := h.entry k j hk
    rw [hh]
    by_cases e : j = i
    · subst e; rw [hi] at hx; cases hx; exact ⟨y', upd_same ..⟩
    · exact ⟨x, by rw [upd_other _ _ e]; exact hx⟩
  made j k x hj := by
    have : ∃ k x, s.heap j = some (k, x) := by
      by_cases e : j = i
      · subst e; exact ⟨q, y, hi⟩
      · rw [hh, upd_other _ _ e] at hj; exact ⟨k, x, hj⟩
    obtain ⟨k, x, hj⟩ := this
    obtain ⟨c, t, u, now, r, h1⟩ := h.made j k x hj
    refine ⟨c, t, u, now, r, ?_⟩
    rw [hp, upd_other _ _ (by rintro rfl; rw [hpc] at h1; cases h1)]
    exact h1
  holder u c' t' now' j hq := by
    rw [hp] at hq
    by_cases e : u = p
    · subst e; rw [upd_same] at hq; cases hq
    · rw [upd_other _ _ e] at hq
      obtain ⟨k, x, h1, h2⟩ := h.holder u c' t' now' j hq
      rw [hh]
      by_cases e : j = i
      · subst e; rw [hi] at h2; cases h2; exact ⟨q, y', h1, upd_same ..⟩
      · exact ⟨k, x, h1, by rw [upd_other _ _ e]; exact h2⟩
  start u t' hq := by
    rw [hn]
    rw [hp] at hq
    by_cases e : u = p
    · subst e; rw [upd_same] at hq; cases hq
      have := h.start u t (by rw [hpc]; rfl)
      omega
    · rw [upd_other _ _ e] at hq; exact Nat.lt_succ_of_lt (h.start u t' hq)
  gone j k x hj hk := by
    obtain ⟨A, e, B, h1, h2, h3, h4, h5⟩ := hg j k x hj hk
    refine ⟨A, e, B, h1, h2, h3, h4, fun u c' t' now' hq => ?_⟩
    rw [hp] at hq
    by_cases e : u = p
    · subst e; rw [upd_same] at hq; cases hq
    · rw [upd_other _ _ e] at hq; exact h5 u c' t' now' hq

theorem Inv.held {s s' : S V} {L : Lin V} (h : Inv de s L) {p : Nat} {c : Call V} {t : Moment} {now0 now : Int} {r : Answer V} {i : Nat}
    {q : String} {y y' : Item V} (hpc : s.pc p = .holds c t now0 i) (hi : s.heap i = some (q, y)) (hn : s'.n = s.n + 1) (hm : s'.map = s.map)
    (hp : s'.pc = upd s.pc p (.ended c t s.now now r)) (hh : s'.heap = upd s.heap i (some (q, y')))
    (hseq : ∀ a : Abs V, a q = some y → seq de a c now = (upd a q (some y'), r)) (hown : ∀ o, (Act.call p c now r).own o = o)
    (hexp : (∀ k d, c ≠ .setExp k d) → y'.exp = y.exp) : ∃ L', Inv de s' L' := by
  have hx1 : ∀ a : Abs V, a q = some y → (Act.call p c now r).right de a := fun a ha => by simp [Act.right, hseq a ha]
  have hx2 : ∀ a : Abs V, a q = some y → (Act.call p c now r).next de a = upd a q (some y') := fun a ha => by simp [Act.next, hseq a ha]
  have hst : t.n < s.n := h.start p t (by rw [hpc]; rfl)
  have hne : s'.NoExp → s.NoExp ∧ y'.exp = y.exp := by
    intro hx
    refine ⟨fun u c' hu k d hc => ?_, hexp (hx p c (by rw [hp, upd_same]; rfl))⟩
    by_cases e : u = p
    · subst e
      rw [hpc] at hu
      exact hx u c' (by rw [hp, upd_same]; exact hu) k d hc
    · exact hx u c' (by rw [hp, upd_other _ _ e]; exact hu) k d hc
  have hdd : ∀ (a : Abs V), a q = some y → ∀ p' k now', (Act.call p c now r) = Act.drop p' k now' → ∃ x, a k = some x ∧ x.expired now' = true :=
    fun _ _ _ _ _ e => nomatch e
  by_cases hat : s.map q = some i
  · have haq : s.abs q = some y := by simp only [S.abs, hat, Option.bind_some, hi, Option.map_some]
    refine ⟨L ++ [(s.n, .call p c now r)], h.call hpc hi hn hm hp hh (b := s.n) ?_ (Nat.le_of_lt hst) (Nat.le_refl _) ?_ ?_ ?_ ?_ ?_ ?_⟩
    · exact List.perm_append_comm
    · exact (right_append _ _ _).2 ⟨h.right, by rw [h.abs]; exact ⟨hx1 _ haq, trivial⟩⟩
    · rw [after_append, h.abs]
      show (Act.call p c now r).next de s.abs = s'.abs
      rw [hx2 _ haq]
      funext k
      unfold S.abs
      rw [hm, hh]
      by_cases e : k = q
      · subst e; rw [upd_same, hat]; simp [upd_same]
      · rw [upd_other _ _ e]
        cases hk : s.map k with
        | none => rfl
        | some j =>
          have : j ≠ i := by
            rintro rfl
            obtain ⟨x, hx⟩ := h.entry k j hk
            rw [hi] at hx; cases hx; exact e rfl
          simp [upd_other _ _ this]
    · rw [owner_append, h.own, hm]; exact hown _
    · exact List.pairwise_append.2 ⟨h.sorted, List.pairwise_singleton _ _, fun a ha b hb => by
        rw [List.mem_singleton.1 hb]; exact Nat.le_of_lt (h.bound a ha)⟩
    · intro hx
      exact (drops_append _ _ _).2 ⟨h.drops (hne hx).1, by rw [h.abs]; exact ⟨hdd _ haq, trivial⟩⟩
    · intro j k x hj hk
      have hji : j ≠ i := by
        rintro rfl
        rw [hh, upd_same] at hj
        cases hj
        rw [hm] at hk
        exact hk hat
      rw [hh, upd_other _ _ hji] at hj
      rw [hm] at hk
      obtain ⟨A, e, B, h1, h2, h3, h4, h5⟩ := h.gone j k x hj hk
      exact ⟨A, e, B ++ [(s.n, .call p c now r)], by rw [h1]; simp, h2, h3, h4, h5⟩
  · obtain ⟨A, e, B, hL, hA, hoA, hw, hte⟩ := h.gone i q y hi hat
    have het : t.n ≤ e.1 := hte p c t now0 hpc
    have hes : e.1 < s.n := h.bound e (by rw [hL]; simp)
    have hwn : e.2.next de (upd (after de empty A) q (some y')) = e.2.next de (after de empty A) := wipes_next hw _ _
    have hafter : ∀ K, after de empty (A ++ (e.1, .call p c now r) :: e :: K) = after de empty (A ++ e :: K) := by
      intro K
      rw [after_append, after_append]
      show after de (e.2.next de ((Act.call p c now r).next de (after de empty A))) K = after de (e.2.next de (after de empty A)) K
      rw [hx2 _ hA, hwn]
    have howner : ∀ K, owner (fun _ => none) (A ++ (e.1, .call p c now r) :: e :: K) = owner (fun _ => none) (A ++ e :: K) := by
      intro K
      rw [owner_append, owner_append]
      show owner (e.2.own ((Act.call p c now r).own _)) K = _
      rw [hown]
      rfl
    refine ⟨A ++ (e.1, .call p c now r) :: e :: B, h.call hpc hi hn hm hp hh (b := e.1) ?_ het (Nat.le_of_lt hes) ?_ ?_ ?_ ?_ ?_ ?_⟩
    · rw [hL]; exact List.perm_middle
    · have := h.right
      rw [hL, right_append] at this
      refine (right_append _ _ _).2 ⟨this.1, hx1 _ hA, ?_⟩
      show Right de ((Act.call p c now r).next de (after de empty A)) (e :: B)
      rw [hx2 _ hA]
      exact ⟨(wipes_right hw _ _).2 this.2.1, by rw [hwn]; exact this.2.2⟩
    · rw [hafter, ← hL, h.abs]
      funext k
      unfold S.abs
      rw [hm, hh]
      cases hk : s.map k with
      | none => rfl
      | some j =>
        have : j ≠ i := by
          rintro rfl
          obtain ⟨x, hx⟩ := h.entry k j hk
          rw [hi] at hx; cases hx; exact hat hk
        simp [upd_other _ _ this]
    · rw [howner, ← hL, h.own, hm]
    · have := h.sorted
      rw [hL, List.pairwise_append, List.pairwise_cons] at this
      obtain ⟨s1, ⟨s2, s3⟩, s4⟩ := this
      refine List.pairwise_append.2 ⟨s1, List.pairwise_cons.2 ⟨fun f hf => ?_, List.pairwise_cons.2 ⟨s2, s3⟩⟩, fun f hf g hg => ?_⟩
      · rcases List.mem_cons.1 hf with rfl | hf
        · exact Nat.le_refl _
        · exact s2 f hf
      · rcases List.mem_cons.1 hg with rfl | hg
        · exact s4 f hf e (List.mem_cons_self ..)
        · exact s4 f hf g hg
    · intro hx
      obtain ⟨hx, hy⟩ := hne hx
      have := h.drops hx
      rw [hL, drops_append] at this
      refine (drops_append _ _ _).2 ⟨this.1, hdd _ hA, ?_⟩
      show DropsExpired de ((Act.call p c now r).next de (after de empty A)) (e :: B)
      rw [hx2 _ hA]
      refine ⟨fun p' k now' hd => ?_, by rw [hwn]; exact this.2.2⟩
      obtain ⟨z, hz, hz'⟩ := this.2.1 p' k now' hd
      rw [hd] at hw
      have hk : k = q := hw
      subst hk
      rw [hA] at hz; cases hz
      exact ⟨y', upd_same .., by unfold Item.expired at hz' ⊢; rw [hy]; exact hz'⟩
    · intro j k x hj hk
      rw [hm] at hk
      by_cases hji : j = i
      · subst hji
        rw [hh, upd_same] at hj
        cases hj
        refine ⟨A ++ [(e.1, .call p c now r)], e, B, by simp, ?_, ?_, hw, hte⟩
        · rw [after_append]
          show (Act.call p c now r).next de (after de empty A) q = _
          rw [hx2 _ hA, upd_same]
        · rw [owner_append]
          show (Act.call p c now r).own _ q = _
          rw [hown]; exact hoA
      · rw [hh, upd_other _ _ hji] at hj
        obtain ⟨A2, e2, B2, h1, h2, h3, h4, h5⟩ := h.gone j k x hj hk
        have hsame : A2 = A → e2 = e → B2 = B → ∃ A' e' B', A ++ (e.1, Act.call p c now r) :: e :: B = A' ++ e' :: B' ∧ after de empty A' k = some x ∧
            owner (fun _ => none) A' k = some j ∧ e'.2.wipes k ∧ ∀ p c t now, s.pc p = .holds c t now j → t.n ≤ e'.1 := by
          rintro rfl rfl rfl
          have hkq : k ≠ q := by rintro rfl; rw [h3] at hoA; cases hoA; exact hji rfl
          refine ⟨A2 ++ [(e2.1, .call p c now r)], e2, B2, by simp, ?_, ?_, h4, h5⟩
          · rw [after_append]
            show (Act.call p c now r).next de (after de empty A2) k = _
            rw [hx2 _ hA, upd_other _ _ hkq]; exact h2
          · rw [owner_append]
            show (Act.call p c now r).own _ k = _
            rw [hown]; exact h3
        rw [hL] at h1
        rcases List.append_eq_append_iff.1 h1 with ⟨K, k1, k2⟩ | ⟨K, k1, k2⟩
        · cases K with
          | nil => simp only [List.nil_append, List.cons.injEq] at k2; exact hsame (by simpa using k1) k2.1.symm k2.2.symm
          | cons f K =>
            simp only [List.cons_append, List.cons.injEq] at k2
            obtain ⟨rfl, rfl⟩ := k2
            refine ⟨A ++ (e.1, .call p c now r) :: e :: K, e2, B2, by simp, ?_, ?_, h4, h5⟩
            · rw [hafter, ← k1]; exact h2
            · rw [howner, ← k1]; exact h3
        · cases K with
          | nil => simp only [List.nil_append, List.cons.injEq] at k2; exact hsame (by simpa using k1.symm) k2.1 k2.2
          | cons f K =>
            simp only [List.cons_append, List.cons.injEq] at k2
            obtain ⟨rfl, rfl⟩ := k2
            exact ⟨A2, e2, K ++ (e.1, .call p c now r) :: e :: B, by rw [k1]; simp, h2, h3, h4, h5⟩

end Tork.CacheConc
