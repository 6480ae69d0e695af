import Verif.CacheLin
import Verif.Props.Cache
/-!
# C83: concurrent calls of the cache
-/

namespace Tork.CacheConc
open Cache (Item)

variable {V : Type} {de : Int}

theorem step_inv {s s' : S V} {L : Lin V} (h : Inv de s L) (hs : Step de s s') : ∃ L', Inv de s' L' := by
  have hst : ∀ {p x t}, s.pc p = x → x.start = some t → t.n < s.n := fun hp ht => h.start _ _ (by rw [hp]; exact ht)
  have hcl : ∀ {p x c}, s.pc p = x → x.callOf = some c → ∀ c', (s.pc p).callOf = some c' → some c = some c' :=
    fun hp hc c' h' => by rw [hp, hc] at h'; exact h'
  have hmiss : ∀ (p : Nat) (c : Call V) (t : Moment) (now : Int) (r : Answer V) (x : Pc V), s.pc p = x → x.callOf = some c →
      x.start = some t → (∀ c t u now r, x ≠ .ended c t u now r) → (seq de s.abs c now) = (s.abs, r) →
      (∀ o, (Act.call p c now r).own o = o) →
      (∀ t' now' l, x = .sweeping t' now' l → c = .sweep ∧ t = t' ∧ now = now') → ∃ L', Inv de (s.go p (.ended c t s.now now r)) L' := by
    intro p c t now r x hp hc ht hx hq ho hsw
    refine ⟨_, h.act (s' := s.go p (.ended c t s.now now r)) p (.ended c t s.now now r) (.call p c now r) rfl rfl (by rw [hp]; exact hx) (.inl ⟨c, t, now, r, rfl, rfl, Nat.le_of_lt (hst hp ht)⟩)
      (fun _ _ h => h) (fun _ _ _ h => .inl h) (fun _ => .inl rfl) (fun _ _ h => .inl h) ?_ (ho _) ?_ (fun _ _ _ e => nomatch e) (fun c' h' => hcl hp hc c' h') nofun
      (fun t' now' l e => by obtain ⟨rfl, rfl, rfl⟩ := hsw t' now' l (hp.symm.trans e); exact .inr ⟨_, _, rfl⟩)⟩
    · simp only [Act.next, hq]; rfl
    · simp only [Act.right, hq]
  cases hs with
  | tick c hc =>
    refine ⟨L, h.right, h.abs, h.own, h.sorted, fun e he => Nat.lt_succ_of_lt (h.bound e he), h.calls, h.ended, h.once, h.entry, h.made, h.holder,
      fun p t ht => Nat.lt_succ_of_lt (h.start p t ht), h.gone, h.drops, h.sweeps⟩
  | call p c hp =>
    exact ⟨L, h.move (s' := s.go p (.called c s.now)) p (.called c s.now) rfl rfl rfl rfl (by rw [hp]; nofun) nofun (fun t ht => by cases ht; exact Nat.lt_succ_self _) nofun
      (by rw [hp]; nofun) (by rw [hp]; nofun)⟩
  | time p c t hp hc =>
    exact ⟨L, h.move (s' := s.go p (.timed c t s.clock)) p _ rfl rfl rfl rfl (by rw [hp]; nofun) nofun (fun t ht => by cases ht; exact Nat.lt_succ_of_lt (hst hp rfl)) nofun
      (by rw [hp]; exact fun _ h => h) (by rw [hp]; nofun)⟩
  | set p k v d t now hp hl =>
    have hfree : s.heap p = none := by
      cases hh : s.heap p with
      | none => rfl
      | some y =>
        obtain ⟨c, t', u, n, r, e⟩ := h.made p y.1 y.2 hh
        rw [hp] at e; cases e
    refine ⟨_, h.act p (.ended (.set k v d) t s.now now (.done true)) (.call p (.set k v d) now (.done true)) rfl rfl (by rw [hp]; nofun)
      (.inl ⟨_, t, now, _, rfl, rfl, Nat.le_of_lt (hst hp rfl)⟩) ?_ ?_ ?_ ?_ ?_ rfl rfl nofun (fun c' h' => hcl hp rfl c' h') nofun (by rw [hp]; nofun)⟩
    · intro i y hy
      exact (upd_other _ _ (by rintro rfl; rw [hfree] at hy; cases hy)).trans hy
    · intro i k' y hy
      by_cases e : i = p
      · subst e
        have hy : upd s.heap i (some (k, ⟨v, due de now d⟩)) i = some (k', y) := hy
        rw [upd_same] at hy
        cases hy
        exact .inr ⟨rfl, upd_same .., hfree, rfl⟩
      · exact .inl ((upd_other _ _ e).symm.trans hy)
    · intro k'
      by_cases e : k' = k
      · exact .inr e.symm
      · exact .inl (upd_other _ _ e)
    · intro k' i hk
      by_cases e : k' = k
      · subst e
        have hk : upd s.map k' (some p) k' = some i := hk
        rw [upd_same] at hk
        cases hk
        exact .inr ⟨_, upd_same ..⟩
      · exact .inl ((upd_other _ _ e).symm.trans hk)
    · funext k'
      show upd s.abs k _ k' = (upd s.map k (some p) k').bind fun i => (upd s.heap p _ i).map (·.2)
      by_cases e : k' = k
      · subst e; simp [upd_same]
      · rw [upd_other _ _ e, upd_other _ _ e]
        unfold S.abs
        cases hk : s.map k' with
        | none => rfl
        | some i =>
          obtain ⟨x, hx⟩ := h.entry k' i hk
          have : i ≠ p := by rintro rfl; rw [hfree] at hx; cases hx
          simp [upd_other _ _ this]
  | getMiss p k t hp hl hm => exact hmiss p _ t s.clock _ _ hp rfl rfl nofun (by simp [seq, S.abs, hm]) (fun _ => rfl) nofun
  | getFind p k t i hp hl hm =>
    exact ⟨L, h.move (s' := s.go p (.holds (.get k) t s.clock i)) p _ rfl rfl rfl rfl (by rw [hp]; nofun) nofun (fun t ht => by cases ht; exact Nat.lt_succ_of_lt (hst hp rfl))
      (fun c t now i e => by cases e; exact ⟨k, rfl, hm⟩) (by rw [hp]; exact fun _ h => h) (by rw [hp]; nofun)⟩
  | getRead p k t now i q x hp hx =>
    obtain ⟨k', x', h1, h2⟩ := h.holder _ _ _ _ _ hp
    cases h1
    rw [hx] at h2; cases h2
    exact h.held (s' := s.go p (.ended (.get k) t s.now s.clock (.got (Item.show x s.clock)))) hp hx (y' := x) rfl rfl rfl
      (by rw [← hx, upd_self]; rfl) (fun a ha => by have e := upd_self a k; rw [ha] at e; rw [e]; simp [seq, ha]) (fun _ => rfl) (fun _ => rfl)
  | expMiss p k d t now hp hl hm => exact hmiss p _ t now _ _ hp rfl rfl nofun (by simp [seq, S.abs, hm]) (fun _ => rfl) nofun
  | expFind p k d t now i hp hl hm =>
    exact ⟨L, h.move (s' := s.go p (.holds (.setExp k d) t now i)) p _ rfl rfl rfl rfl (by rw [hp]; nofun) nofun (fun t ht => by cases ht; exact Nat.lt_succ_of_lt (hst hp rfl))
      (fun c t now i e => by cases e; exact ⟨k, rfl, hm⟩) (by rw [hp]; exact fun _ h => h) (by rw [hp]; nofun)⟩
  | expWrite p k d t now i q x hp hx =>
    obtain ⟨k', x', h1, h2⟩ := h.holder _ _ _ _ _ hp
    cases h1
    rw [hx] at h2; cases h2
    exact h.held hp hx (y' := { x with exp := due de now d }) rfl rfl rfl rfl (fun a ha => by simp [seq, ha]) (fun _ => rfl) (fun hc => absurd rfl (hc k d))
  | modMiss p k m t hp hl hm => exact hmiss p _ t s.clock _ _ hp rfl rfl nofun (by simp [seq, S.abs, hm]) (fun _ => rfl) nofun
  | modFind p k m t i hp hl hm =>
    exact ⟨L, h.move (s' := s.go p (.holds (.modify k m) t s.clock i)) p _ rfl rfl rfl rfl (by rw [hp]; nofun) nofun (fun t ht => by cases ht; exact Nat.lt_succ_of_lt (hst hp rfl))
      (fun c t now i e => by cases e; exact ⟨k, rfl, hm⟩) (by rw [hp]; exact fun _ h => h) (by rw [hp]; nofun)⟩
  | modFail p k m t now i q x hp hx hv =>
    obtain ⟨k', x', h1, h2⟩ := h.holder _ _ _ _ _ hp
    cases h1
    rw [hx] at h2; cases h2
    exact h.held (s' := s.go p (.ended (.modify k m) t s.now now (.done false))) hp hx (y' := x) rfl rfl rfl
      (by rw [← hx, upd_self]; rfl) (fun a ha => by have e := upd_self a k; rw [ha] at e; rw [e]; simp [seq, ha, hv]) (fun _ => rfl) (fun _ => rfl)
  | modWrite p k m t now i q x v hp hx hv =>
    obtain ⟨k', x', h1, h2⟩ := h.holder _ _ _ _ _ hp
    cases h1
    rw [hx] at h2; cases h2
    exact h.held hp hx (y' := { x with obj := v }) rfl rfl rfl rfl (fun a ha => by simp [seq, ha, hv]) (fun _ => rfl) (fun _ => rfl)
  | delete p k t hp hl =>
    refine ⟨_, h.act p (.ended (.delete k) t s.now s.clock (.done true)) (.call p (.delete k) s.clock (.done true)) rfl rfl (by rw [hp]; nofun)
      (.inl ⟨_, t, _, _, rfl, rfl, Nat.le_of_lt (hst hp rfl)⟩) (fun _ _ h => h) (fun _ _ _ h => .inl h) ?_ ?_ ?_ rfl rfl nofun (fun c' h' => hcl hp rfl c' h') nofun (by rw [hp]; nofun)⟩
    · intro k'
      by_cases e : k' = k
      · exact .inr e.symm
      · exact .inl (upd_other _ _ e)
    · intro k' i hk
      by_cases e : k' = k
      · subst e
        have hk : upd s.map k' none k' = some i := hk
        rw [upd_same] at hk; cases hk
      · exact .inl ((upd_other _ _ e).symm.trans hk)
    · funext k'
      show upd s.abs k none k' = (upd s.map k none k').bind fun i => (s.heap i).map (·.2)
      by_cases e : k' = k
      · subst e; simp [upd_same]
      · rw [upd_other _ _ e, upd_other _ _ e]; rfl
  | flush p t hp hl =>
    exact ⟨_, h.act p (.ended .flush t s.now s.clock (.done true)) (.call p .flush s.clock (.done true)) rfl rfl (by rw [hp]; nofun)
      (.inl ⟨_, t, _, _, rfl, rfl, Nat.le_of_lt (hst hp rfl)⟩) (fun _ _ h => h) (fun _ _ _ h => .inl h) (fun _ => .inr trivial)
      (fun k i hk => nomatch hk) rfl rfl rfl nofun (fun c' h' => hcl hp rfl c' h') nofun (by rw [hp]; nofun)⟩
  | sweepLock p t now l hp hl hn hk =>
    exact ⟨L, h.move p (.sweeping t now l) rfl rfl rfl rfl (by rw [hp]; nofun) nofun (fun t ht => by cases ht; exact Nat.lt_succ_of_lt (hst hp rfl)) nofun
      (by rw [hp]; exact fun _ h => h) (by rw [hp]; nofun)⟩
  | sweepKeep p t now k l i q x hp hm hx he =>
    exact ⟨L, h.move (s' := s.go p (.sweeping t now l)) p _ rfl rfl rfl rfl (by rw [hp]; nofun) nofun (fun t ht => by cases ht; exact Nat.lt_succ_of_lt (hst hp rfl)) nofun
      (by rw [hp]; exact fun _ h => h) (by rw [hp]; exact fun _ _ _ e => by cases e; exact ⟨_, rfl⟩)⟩
  | sweepDrop p t now k l i q x hp hm hx he =>
    refine ⟨_, h.act p (.sweeping t now l) (.drop p k now) rfl rfl (by rw [hp]; nofun)
      (.inr ⟨_, _, t, l, rfl, rfl, Nat.lt_succ_of_lt (hst hp rfl)⟩) (fun _ _ h => h) (fun _ _ _ h => .inl h) ?_ ?_ ?_ rfl trivial ?_ (by rw [hp]; exact fun _ h => h)
      (fun _ _ _ e => by cases e; exact ⟨rfl, t, l, rfl, Nat.le_of_lt (hst hp rfl)⟩) (by rw [hp]; exact fun _ _ _ e => by cases e; exact .inl ⟨_, rfl⟩)⟩
    · intro k'
      by_cases e : k' = k
      · exact .inr e.symm
      · exact .inl (upd_other _ _ e)
    · intro k' i hk
      by_cases e : k' = k
      · subst e
        have hk : upd s.map k' none k' = some i := hk
        rw [upd_same] at hk; cases hk
      · exact .inl ((upd_other _ _ e).symm.trans hk)
    · funext k'
      show upd s.abs k none k' = (upd s.map k none k').bind fun i => (s.heap i).map (·.2)
      by_cases e : k' = k
      · subst e; simp [upd_same]
      · rw [upd_other _ _ e, upd_other _ _ e]; rfl
    · intro p' k' now' e
      cases e
      exact ⟨x, by simp only [S.abs, hm, Option.bind_some, hx, Option.map_some], he⟩
  | sweepEnd p t now hp =>
    obtain ⟨L', h'⟩ := hmiss p .sweep t now (.done true) _ hp rfl rfl nofun rfl (fun _ => rfl) (fun _ _ _ e => by cases e; exact ⟨rfl, rfl, rfl⟩)
    exact ⟨L', h'.right, h'.abs, h'.own, h'.sorted, h'.bound, h'.calls, h'.ended, h'.once, h'.entry, h'.made, h'.holder, h'.start, h'.gone, h'.drops, h'.sweeps⟩

theorem reach_inv {s : S V} (h : Reach de s) : ∃ L, Inv de s L := by
  induction h with
  | init => exact ⟨[], inv_init⟩
  | step s s' _ hs ih =>
    obtain ⟨L, hi⟩ := ih
    exact step_inv hi hs

theorem Inv.span {s : S V} {L : Lin V} (h : Inv de s L) {e : Nat × Act V} (he : e ∈ L) :
    (∀ t, (s.pc e.2.who).start = some t → t.n ≤ e.1) ∧ ∀ u, (s.pc e.2.who).finish = some u → e.1 ≤ u.n := by
  rcases e with ⟨b, ⟨p, c, now, r⟩ | ⟨p, k, now⟩⟩
  · obtain ⟨t, u, h1, h2, h3⟩ := h.calls b p c now r he
    constructor
    · intro t' ht
      have ht : (s.pc p).start = some t' := ht
      rw [h1] at ht; cases ht; exact h2
    · intro u' hu
      have hu : (s.pc p).finish = some u' := hu
      rw [h1] at hu; cases hu; exact h3
  · obtain ⟨t, h1, h2, h3⟩ := h.sweeps b p k now he
    refine ⟨fun t' ht => ?_, h3⟩
    have ht : (s.pc p).start = some t' := ht
    rcases h1 with ⟨l, h1⟩ | ⟨u, r, h1⟩ <;> (rw [h1] at ht; cases ht; exact h2)

theorem Inv.explains {s : S V} {L : Lin V} (h : Inv de s L) : Explains de (L.map (·.2)) s where
  right := (answers_eq _ _).2 h.right
  content := (content_eq _ _).trans h.abs
  calls p c now r := by
    constructor
    · intro hm
      obtain ⟨⟨b, x⟩, hx, rfl⟩ := List.mem_map.1 hm
      obtain ⟨t, u, h1, -⟩ := h.calls b p c now r hx
      exact ⟨t, u, h1⟩
    · rintro ⟨t, u, hp⟩
      obtain ⟨b, hb⟩ := h.ended p c t u now r hp
      exact List.mem_map.2 ⟨_, hb, rfl⟩
  once := by rw [List.filterMap_map]; exact h.once
  drops p k now hm := by
    obtain ⟨⟨b, x⟩, hx, rfl⟩ := List.mem_map.1 hm
    obtain ⟨t, h1, -⟩ := h.sweeps b p k now hx
    exact ⟨t, h1⟩
  order := by
    rw [List.pairwise_map]
    refine h.sorted.imp_of_mem fun {x y} hx hy hxy => ?_
    rintro ⟨u, t, h1, h2, h3⟩
    have := (h.span hy).2 u h1
    have := (h.span hx).1 t h2
    omega

/-- C83: whatever goroutines call the cache, and however their calls and clean-ups interleave, there is an order in which the calls take
effect one after the other. If nobody changes the expiration of an entry, clean-ups in this order remove expired entries only. -/
theorem C83_linearizable {s : S V} (h : Reach de s) :
    ∃ L : List (Act V), Explains de L s ∧ (s.NoExp → RemovesExpired de empty L) := by
  obtain ⟨L, hi⟩ := reach_inv h
  exact ⟨_, hi.explains, fun hx => (removes_eq _ _).2 (hi.drops hx)⟩

/-- The clock readings of a call. -/
def Pc.InTime (c : Int) : Pc V → Prop
  | .fresh => True
  | .called _ t => t.clock ≤ c
  | .timed _ t now | .holds _ t now _ | .sweeping t now _ => t.clock ≤ now ∧ now ≤ c
  | .ended _ t u now _ => t.clock ≤ now ∧ now ≤ u.clock

theorem Pc.InTime.mono {c c' : Int} {x : Pc V} (h : x.InTime c) (hc : c ≤ c') : x.InTime c' := by
  cases x <;> simp only [Pc.InTime] at h ⊢ <;> omega

theorem reach_inTime {s : S V} (h : Reach de s) : ∀ p, (s.pc p).InTime s.clock := by
  induction h with
  | init => exact fun _ => trivial
  | step s s' _ hs ih =>
    have hgo : ∀ (p : Nat) (z : Pc V), z.InTime s.clock → ∀ q, (upd s.pc p z q).InTime s.clock := by
      intro p z hz q
      by_cases e : q = p
      · subst e; rw [upd_same]; exact hz
      · rw [upd_other _ _ e]; exact ih q
    have hp : ∀ {p x}, s.pc p = x → x.InTime s.clock := fun {p x} e => e ▸ ih p
    cases hs with
    | tick c hc => exact fun p => (ih p).mono hc
    | call p c hq => exact hgo p _ (Int.le_refl _)
    | time p c t hq => exact hgo p _ ⟨hp hq, Int.le_refl _⟩
    | set p k v d t now hq => exact hgo p _ (by have := hp hq; exact this)
    | getMiss p k t hq => exact hgo p _ ⟨hp hq, Int.le_refl _⟩
    | getFind p k t i hq => exact hgo p _ ⟨hp hq, Int.le_refl _⟩
    | getRead p k t now i q x hq => exact hgo p _ ⟨Int.le_trans (hp hq).1 (hp hq).2, Int.le_refl _⟩
    | expMiss p k d t now hq => exact hgo p _ (by have := hp hq; exact this)
    | expFind p k d t now i hq => exact hgo p _ (by have := hp hq; exact this)
    | expWrite p k d t now i q x hq => exact hgo p _ (by have := hp hq; exact this)
    | modMiss p k m t hq => exact hgo p _ ⟨hp hq, Int.le_refl _⟩
    | modFind p k m t i hq => exact hgo p _ ⟨hp hq, Int.le_refl _⟩
    | modFail p k m t now i q x hq => exact hgo p _ (by have := hp hq; exact this)
    | modWrite p k m t now i q x v hq => exact hgo p _ (by have := hp hq; exact this)
    | delete p k t hq => exact hgo p _ ⟨hp hq, Int.le_refl _⟩
    | flush p t hq => exact hgo p _ ⟨hp hq, Int.le_refl _⟩
    | sweepLock p t now l hq => exact hgo p _ (by have := hp hq; exact this)
    | sweepKeep p t now k l i q x hq => exact hgo p _ (by have := hp hq; exact this)
    | sweepDrop p t now k l i q x hq => exact hgo p _ (by have := hp hq; exact this)
    | sweepEnd p t now hq => exact hgo p _ (by have := hp hq; exact this)

/-- C83: the time that decides whether an entry has expired, or when it will, is a time during the call. -/
theorem C83_clock {s : S V} (h : Reach de s) {p : Nat} {c : Call V} {t u : Moment} {now : Int} {r : Answer V}
    (hp : s.pc p = .ended c t u now r) : t.clock ≤ now ∧ now ≤ u.clock := by
  have := reach_inTime h p
  rw [hp] at this
  exact this

/-! ### The sequential cache is the one of C34 -/

/-- A call as an operation of C34. -/
def Call.op : Call V → Option (Cache.Op V)
  | .set k v d => some (.set k v d)
  | .setExp k d => some (.setExpiration k d)
  | .modify k m => some (.modify k m)
  | .delete k => some (.delete k)
  | .flush => some .flush
  | .get _ | .sweep => none

theorem lookup_put (l : List (String × Item V)) (k k' : String) (x : Item V) :
    Cache.lookup (Cache.put l k x) k' = if k' = k then some x else Cache.lookup l k' := by
  induction l with
  | nil => simp only [Cache.put, Cache.lookup]; by_cases e : k = k' <;> simp [e, eq_comm]
  | cons y l ih =>
    obtain ⟨a, y⟩ := y
    simp only [Cache.put]
    by_cases e : a = k
    · subst e
      simp only [if_pos, Cache.lookup]
      by_cases e2 : a = k'
      · simp [e2]
      · simp [e2, Ne.symm e2]
    · simp only [if_neg e, Cache.lookup]
      by_cases e2 : a = k'
      · subst e2; simp [e]
      · simp only [if_neg e2]; exact ih

theorem lookup_remove (l : List (String × Item V)) (k k' : String) :
    Cache.lookup (Cache.remove l k) k' = if k' = k then none else Cache.lookup l k' := by
  induction l with
  | nil => simp [Cache.remove, Cache.lookup]
  | cons y l ih =>
    obtain ⟨a, y⟩ := y
    unfold Cache.remove at ih ⊢
    rw [List.filter_cons]
    by_cases e : a = k
    · subst e
      simp only [ne_eq, not_true, decide_false, Bool.false_eq_true, if_false]
      rw [ih]
      simp only [Cache.lookup]
      by_cases e2 : k' = a
      · simp [e2]
      · simp [e2, Ne.symm e2]
    · simp only [ne_eq, e, not_false_eq_true, decide_true, if_true, Cache.lookup]
      by_cases e2 : a = k'
      · subst e2; simp [e]
      · simp only [if_neg e2]; exact ih

/-- C83: the sequential cache of this specification is the cache of C34. -/
theorem C83_sequential (c : Cache.Cache V) (hd : c.def_ = if de = 0 then -1 else de) (now : Int) :
    (∀ (x : Call V) (o : Cache.Op V), x.op = some o →
      (seq de (Cache.lookup c.items) x now).1 = Cache.lookup (Cache.step c (now, o)).items) ∧
    (∀ k, (seq de (Cache.lookup c.items) (.get k) now).2 = .got (Cache.get c now k)) ∧
    (∀ k d, (seq de (Cache.lookup c.items) (.setExp k d) now).2 = .done (Cache.setExpiration c now k d).2) ∧
    (∀ k m, (seq de (Cache.lookup c.items) (.modify k m) now).2 = .done (Cache.modify c k m).2) := by
  have hdue : ∀ d, due de now d = Cache.expiry c now d := fun d => by simp [due, Cache.expiry, hd]
  refine ⟨?_, ?_, ?_, ?_⟩
  · intro x o ho
    cases x <;> simp only [Call.op, Option.some.injEq] at ho <;> try (cases ho)
    · funext k'; simp only [seq, upd, Cache.step, Cache.set, lookup_put, hdue]
    · rename_i k d
      simp only [seq, Cache.step, Cache.setExpiration]
      cases hl : Cache.lookup c.items k with
      | none => rfl
      | some x => funext k'; simp only [upd, lookup_put, hdue]
    · rename_i k m
      simp only [seq, Cache.step, Cache.modify]
      cases hl : Cache.lookup c.items k with
      | none => rfl
      | some x =>
        dsimp only
        cases m x.obj with
        | none => rfl
        | some v => funext k'; simp only [upd, lookup_put]
    · rename_i k
      simp only [seq, Cache.step, Cache.delete]
      cases hl : Cache.lookup c.items k with
      | none =>
        funext k'
        simp only [upd]
        by_cases e : k' = k
        · subst e; rw [if_pos rfl, hl]
        · rw [if_neg e]
      | some x => funext k'; simp only [upd, lookup_remove]
    · rfl
  · intro k
    simp only [seq, Cache.get]
    cases Cache.lookup c.items k <;> rfl
  · intro k d
    simp only [seq, Cache.setExpiration]
    cases Cache.lookup c.items k <;> rfl
  · intro k m
    simp only [seq, Cache.modify]
    cases hl : Cache.lookup c.items k with
    | none => rfl
    | some x => dsimp only; cases m x.obj <;> rfl

/-! ### Concrete executions -/

/-- C83 applies: a `Get` finds an entry, which is replaced before it reads it; it answers with the old value, after the `Set` has returned.
It takes effect before this `Set`. -/
example : ∃ s : S Nat, Reach 0 s ∧ s.NoExp ∧ (∃ t u now, s.pc 1 = .ended (.get "k") t u now (.got (some 7)) ∧
    ∃ t' u' now', s.pc 2 = .ended (.set "k" 8 0) t' u' now' (.done true) ∧ u'.n < u.n) ∧ (s.abs "k").map (·.obj) = some 8 := by
  have r1 := Reach.step _ _ (Reach.init (V := Nat) (de := 0)) (.call _ 0 (.set "k" 7 0) rfl)
  have r2 := Reach.step _ _ r1 (.time _ 0 _ _ rfl rfl)
  have r3 := Reach.step _ _ r2 (.set _ 0 _ _ _ _ _ rfl rfl)
  have r4 := Reach.step _ _ r3 (.call _ 1 (.get "k") rfl)
  have r5 := Reach.step _ _ r4 (.getFind _ 1 _ _ 0 rfl rfl (by simp [S.go, upd]))
  have r6 := Reach.step _ _ r5 (.call _ 2 (.set "k" 8 0) rfl)
  have r7 := Reach.step _ _ r6 (.time _ 2 _ _ rfl rfl)
  have r8 := Reach.step _ _ r7 (.set _ 2 _ _ _ _ _ rfl rfl)
  have r9 := Reach.step _ _ r8 (.getRead _ 1 _ _ _ 0 "k" ⟨7, 0⟩ rfl rfl)
  refine ⟨_, r9, ?_, ⟨_, _, _, rfl, _, _, _, rfl, by decide⟩, by simp [S.abs, S.go, upd]⟩
  intro p c hc k d
  simp only [S.go, upd] at hc
  split at hc
  · cases hc; nofun
  · split at hc
    · cases hc; nofun
    · split at hc
      · cases hc; nofun
      · cases hc

/-- C83, defect: the condition on expirations is needed. `SetExpiration` is called six ticks before an entry expires and makes it last
forever; between its two locks the entry expires and a clean-up removes it. The call reports success, nothing but a `Set`, this call and
a clean-up has taken place, but the value is gone. `/repo/internal/cache/cache.go:66-79`. -/
theorem C83_expiration_lost_defect : ∃ s : S Nat, Reach 0 s ∧
    (∃ t0 u0 n0 t1 u1 n1 t2 u2 n2 t3 u3 n3, s.pc 0 = .ended (.set "k" 7 10) t0 u0 n0 (.done true) ∧
      s.pc 1 = .ended (.setExp "k" (-1)) t1 u1 n1 (.done true) ∧ u0.n < t1.n ∧ t1.clock = 5 ∧ n0 + 10 = 11 ∧ s.pc 2 = .ended .sweep t2 u2 n2 (.done true) ∧
      s.pc 3 = .ended (.get "k") t3 u3 n3 (.got none) ∧ u1.n < t3.n) ∧ ∀ p, 4 ≤ p → s.pc p = .fresh := by
  have r1 := Reach.step _ _ (Reach.init (V := Nat) (de := 0)) (.call _ 0 (.set "k" 7 10) rfl)
  have r2 := Reach.step _ _ r1 (.time _ 0 _ _ rfl rfl)
  have r3 := Reach.step _ _ r2 (.set _ 0 _ _ _ _ _ rfl rfl)
  have r4 := Reach.step _ _ r3 (.tick _ 5 (by decide))
  have r5 := Reach.step _ _ r4 (.call _ 1 (.setExp "k" (-1)) rfl)
  have r6 := Reach.step _ _ r5 (.time _ 1 _ _ rfl rfl)
  have r7 := Reach.step _ _ r6 (.expFind _ 1 _ _ _ _ 0 rfl rfl (by simp [S.go, upd]))
  have r7 := Reach.step _ _ r7 (.tick _ 20 (by decide))
  have r8 := Reach.step _ _ r7 (.call _ 2 .sweep rfl)
  have r9 := Reach.step _ _ r8 (.time _ 2 _ _ rfl rfl)
  have r10 := Reach.step _ _ r9 (.sweepLock _ 2 _ _ ["k"] rfl rfl (by simp) (by intro k; simp [S.go, upd]))
  have r11 := Reach.step _ _ r10 (.sweepDrop _ 2 _ _ _ _ 0 "k" ⟨7, 11⟩ rfl (by simp [S.go, upd]) (by simp [S.go, upd, due]) (by decide))
  have r12 := Reach.step _ _ r11 (.sweepEnd _ 2 _ _ rfl)
  have r13 := Reach.step _ _ r12 (.expWrite _ 1 _ _ _ _ 0 "k" ⟨7, 11⟩ rfl (by simp [S.go, upd, due]))
  have r14 := Reach.step _ _ r13 (.call _ 3 (.get "k") rfl)
  have r15 := Reach.step _ _ r14 (.getMiss _ 3 _ _ rfl rfl (by simp [S.go, upd]))
  refine ⟨_, r15, ⟨_, _, _, _, _, _, _, _, _, _, _, _, rfl, rfl, by decide, rfl, rfl, rfl, rfl, by decide⟩, fun p hp => ?_⟩
  have e0 : p ≠ 0 := by omega
  have e1 : p ≠ 1 := by omega
  have e2 : p ≠ 2 := by omega
  have e3 : p ≠ 3 := by omega
  simp [S.go, upd, e0, e1, e2, e3]

end Tork.CacheConc
