import Verif.Closing

/-!
# C88 — shutting the broker in memory down
-/

namespace Tork.Closing

variable {coord : Nat → Bool}

/-- `Shutdown` has been called and has returned, and not because its context ended. -/
def State.shutDown (s : State) : Prop := s.returned = some true

/-- **C88.** When `Shutdown` has returned (not because its context ended), every subscription to a queue of the coordinator that there was when it was
called has ended: its handler is not running. -/
theorem C88_ended {s : State} (h : Steps coord {} s) (hd : s.shutDown) {i : Nat} (ho : s.old i = true) :
    ∃ q l, s.loops i = some (q, l) ∧ (coord q = true → l = .ended) := by
  have hi := inv_steps (inv_init coord) h
  obtain ⟨q, l, e⟩ := hi.there i ho
  refine ⟨q, l, e, fun hc => ?_⟩
  rcases hi.closed i q l ho e hc with h1 | h1
  · exact h1
  · rw [hi.returned hd] at h1
    exact h1.elim

/-- The messages a handler has been called with. -/
def State.callsOf (s : State) (i : Nat) : List Nat := (s.calls.filter fun c => c.1 = i).map (·.2)

theorem Step.quiet {s t : State} (hs : Step coord s t) {i q : Nat} (he : s.loops i = some (q, .ended)) :
    t.loops i = some (q, .ended) ∧ t.callsOf i = s.callsOf i := by
  cases hs <;> unfold State.callsOf <;> grind [upd]

/-- **C88.** … nor is it ever called again, whatever is published afterwards. -/
theorem C88_silent {s t : State} (h : Steps coord {} s) (hd : s.shutDown) {i q : Nat} {l : Loop} (ho : s.old i = true)
    (hl : s.loops i = some (q, l)) (hc : coord q = true) (ht : Steps coord s t) :
    t.loops i = some (q, .ended) ∧ t.callsOf i = s.callsOf i := by
  obtain ⟨q', l', e, h1⟩ := C88_ended h hd ho
  rw [hl] at e
  obtain ⟨rfl, rfl⟩ : q = q' ∧ l = l' := by
    injection e with e
    injection e with e1 e2
    exact ⟨e1, e2⟩
  have he : s.loops i = some (q, .ended) := by rw [hl, h1 hc]
  clear h hd ho hl e h1
  induction ht with
  | refl => exact ⟨he, rfl⟩
  | step _ hs ih =>
    obtain ⟨a, b⟩ := hs.quiet ih.1
    exact ⟨a, b.trans ih.2⟩

/-- The messages of a queue that a handler is working on. -/
structure Whole (s : State) : Prop where
  /-- what a handler works on is the last message it was called with -/
  last : ∀ i q m, s.loops i = some (q, .handling m) → (s.callsOf i).getLast? = some m
  /-- only subscriptions are called -/
  only : ∀ i, s.loops i = none → s.callsOf i = []

/-- **C88.** No handler is interrupted: a subscription ends, and takes another message, only after its handler has returned, so what a handler
is working on is the message it was called with last. -/
theorem C88_whole {s : State} (h : Steps coord {} s) {i q m : Nat} (hm : s.loops i = some (q, .handling m)) :
    (s.callsOf i).getLast? = some m ∧ ∀ t, Step coord s t → t.loops i = some (q, .handling m) ∨ t.loops i = some (q, .idle) := by
  have hw : Whole s := by
    clear hm
    induction h with
    | refl => exact ⟨(fun _ _ _ e => nomatch e), (fun _ _ => rfl)⟩
    | step _ hs ih =>
      obtain ⟨a, b⟩ := ih
      cases hs with
      | receive i' q' m' l' hi' hb' =>
        constructor
        · intro i q m e
          unfold State.callsOf at *
          rw [List.filter_append, List.map_append]
          by_cases hii : i = i'
          · subst hii
            simp only [upd, if_true] at e
            injection e with e
            injection e with _ e
            injection e with e
            subst e
            simp
          · simp only [upd, if_neg hii] at e
            have : ¬i' = i := fun e => hii e.symm
            simpa [this] using a i q m e
        · intro i e
          unfold State.callsOf at *
          by_cases hii : i = i'
          · subst hii
            simp [upd] at e
          · simp only [upd, if_neg hii] at e
            have : ¬i' = i := fun e => hii e.symm
            simpa [this] using b i e
      | _ => constructor <;> unfold State.callsOf at * <;> grind [upd]
  refine ⟨hw.last i q m hm, fun t hs => ?_⟩
  cases hs <;> grind [upd]

/-- **C88.** The defect: a subscription to another queue (a worker's) is told to end but not waited for, and it goes on as long as its `select` takes
messages: whatever is published to the queue after `Shutdown` has returned may still be handled, all of it. -/
theorem C88_worker_defect {q : Nat} (hq : coord q = false) (l : List Nat) :
    ∃ s, Steps coord {} s ∧ s.shutDown ∧ s.old 0 = true ∧ s.callsOf 0 = [] ∧ ∃ t, Steps coord s t ∧ t.callsOf 0 = l := by
  let s1 : State := { loops := upd (fun _ => none) 0 (some (q, .idle)) }
  have h1 : Step coord {} s1 := .subscribe {} 0 q rfl (fun h => h)
  let s2 : State := { s1 with down := .closing [q] none, old := fun i => (s1.loops i).isSome }
  have h2 : Step coord s1 s2 := .shutdown s1 [q] rfl (fun i q' l' e => by grind [upd])
  let s3 : State := { s2 with down := .closing [] (some { queue := q, rest := [0] }) }
  have h3 : Step coord s2 s3 := .lock s2 q [] [0] rfl (fun i => by
    constructor
    · intro hi
      have : i = 0 := by simpa using hi
      subst this
      exact ⟨.idle, rfl⟩
    · rintro ⟨l', e⟩
      by_cases hi : i = 0
      · subst hi; exact .head _
      · simp [s2, s1, upd, hi] at e)
  let s4 : State := { s3 with told := upd s3.told 0 true, down := .closing [] (some { queue := q, rest := [], waiting := none }) }
  have h4 : Step coord s3 s4 := by
    have := Step.tell (coord := coord) s3 [] q 0 [] rfl
    simp only [hq, Bool.false_eq_true, if_false] at this
    exact this
  let s5 : State := { s4 with down := .closing [] none }
  have h5 : Step coord s4 s5 := .unlock s4 [] q rfl
  let s6 : State := { s5 with down := .done }
  have h6 : Step coord s5 s6 := .finished s5 rfl
  let s7 : State := { s6 with returned := some true }
  have h7 : Step coord s6 s7 := .returns s6 rfl rfl
  have h := (((((((Steps.refl _).step h1).step h2).step h3).step h4).step h5).step h6).step h7
  refine ⟨s7, h, rfl, rfl, rfl, ?_⟩
  have key : ∀ (l : List Nat) (s : State), s.loops 0 = some (q, .idle) → s.buf q = [] →
      ∃ t, Steps coord s t ∧ t.callsOf 0 = s.callsOf 0 ++ l := by
    intro l
    induction l with
    | nil => exact fun s _ _ => ⟨s, .refl s, by simp⟩
    | cons m l ih =>
      intro s hs hb
      let a : State := { s with buf := upd s.buf q (s.buf q ++ [m]) }
      have ha : Step coord s a := .publish s q m
      let b : State := { a with loops := upd a.loops 0 (some (q, .handling m)), buf := upd a.buf q [], calls := a.calls ++ [(0, m)] }
      have hb' : Step coord a b := .receive a 0 q m [] hs (by simp [a, upd, hb])
      let c : State := { b with loops := upd b.loops 0 (some (q, .idle)) }
      have hc : Step coord b c := .finish b 0 q m rfl
      obtain ⟨t, ht, e⟩ := ih c rfl (by simp [c, b, upd])
      refine ⟨t, (((Steps.refl _).step ha).step hb').step hc |>.trans ht, ?_⟩
      rw [e]
      show ((s.calls ++ [(0, m)]).filter _).map _ ++ l = s.callsOf 0 ++ m :: l
      unfold State.callsOf
      simp
  obtain ⟨t, ht, e⟩ := key l s7 rfl rfl
  exact ⟨t, ht, e⟩

/-- **C88.** The other defect: a second call of `Shutdown` returns at once, although handlers of the coordinator are still running. -/
theorem C88_second_defect {q : Nat} (hq : coord q = true) (m : Nat) :
    ∃ s, Steps coord {} s ∧ s.again = true ∧ s.old 0 = true ∧ s.loops 0 = some (q, .handling m) := by
  let s1 : State := { loops := upd (fun _ => none) 0 (some (q, .idle)) }
  have h1 : Step coord {} s1 := .subscribe {} 0 q rfl (fun h => h)
  let s2 : State := { s1 with buf := upd s1.buf q [m] }
  have h2 : Step coord s1 s2 := .publish s1 q m
  let s3 : State := { s2 with loops := upd s2.loops 0 (some (q, .handling m)), buf := upd s2.buf q [], calls := [(0, m)] }
  have h3 : Step coord s2 s3 := .receive s2 0 q m [] rfl (by simp [s2, upd])
  let s4 : State := { s3 with down := .closing [q] none, old := fun i => (s3.loops i).isSome }
  have h4 : Step coord s3 s4 := .shutdown s3 [q] rfl (fun i q' l' e => by grind [upd])
  have _ := hq
  exact ⟨_, ((((Steps.refl _).step h1).step h2).step h3).step h4 |>.step (.again s4 (.inl ⟨_, _, rfl⟩)), rfl, rfl, rfl⟩

/-! ## Examples -/

/-- A coordinator's queue with a subscription whose handler is running when `Shutdown` is called: `Shutdown` waits for it, and returns. The hypotheses of
`C88_ended` and `C88_silent`. -/
example : ∃ s, Steps (fun _ => true) {} s ∧ s.shutDown ∧ s.old 0 = true ∧ s.loops 0 = some (5, .ended) ∧ s.callsOf 0 = [7] := by
  let s1 : State := { loops := upd (fun _ => none) 0 (some (5, .idle)) }
  have h1 : Step (fun _ => true) {} s1 := .subscribe {} 0 5 rfl (fun h => h)
  let s2 : State := { s1 with buf := upd s1.buf 5 [7] }
  have h2 : Step (fun _ => true) s1 s2 := .publish s1 5 7
  let s3 : State := { s2 with loops := upd s2.loops 0 (some (5, .handling 7)), buf := upd s2.buf 5 [], calls := [(0, 7)] }
  have h3 : Step (fun _ => true) s2 s3 := .receive s2 0 5 7 [] rfl rfl
  let s4 : State := { s3 with down := .closing [5] none, old := fun i => (s3.loops i).isSome }
  have h4 : Step (fun _ => true) s3 s4 := .shutdown s3 [5] rfl (fun i q' l' e => by grind [upd])
  let s5 : State := { s4 with down := .closing [] (some { queue := 5, rest := [0] }) }
  have h5 : Step (fun _ => true) s4 s5 := .lock s4 5 [] [0] rfl (fun i => by
    constructor
    · intro hi
      have : i = 0 := by simpa using hi
      subst this
      exact ⟨.handling 7, rfl⟩
    · rintro ⟨l', e⟩
      by_cases hi : i = 0
      · subst hi; exact .head _
      · simp [s4, s3, s2, s1, upd, hi] at e)
  let s6 : State := { s5 with told := upd s5.told 0 true, down := .closing [] (some { queue := 5, rest := [], waiting := some 0 }) }
  have h6 : Step (fun _ => true) s5 s6 := .tell s5 [] 5 0 [] rfl
  let s7 : State := { s6 with loops := upd s6.loops 0 (some (5, .idle)) }
  have h7 : Step (fun _ => true) s6 s7 := .finish s6 0 5 7 rfl
  let s8 : State := { s7 with loops := upd s7.loops 0 (some (5, .ended)) }
  have h8 : Step (fun _ => true) s7 s8 := .stop s7 0 5 rfl rfl
  let s9 : State := { s8 with down := .closing [] (some { queue := 5, rest := [] }) }
  have h9 : Step (fun _ => true) s8 s9 := .await s8 [] 5 0 [] rfl rfl
  let s10 : State := { s9 with down := .closing [] none }
  have h10 : Step (fun _ => true) s9 s10 := .unlock s9 [] 5 rfl
  let s11 : State := { s10 with down := .done }
  have h11 : Step (fun _ => true) s10 s11 := .finished s10 rfl
  have h := ((((((((((Steps.refl _).step h1).step h2).step h3).step h4).step h5).step h6).step h7).step h8).step h9).step h10 |>.step h11
  exact ⟨_, h.step (.returns s11 rfl rfl), rfl, rfl, rfl, rfl⟩

end Tork.Closing
