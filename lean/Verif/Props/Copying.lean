import Verif.Copying

/-!
# C85 — the log of a running container

While a container runs, `Wait`, and before it `Start` if the task has a probe, copy its output to the log of the task in goroutines of their
own (`/repo/runtime/docker/tcontainer.go:258-314, 319-430`). The theorems are about every interleaving of the container, the caller and the two
goroutines. What holds: what each of them contributes is the output from its beginning, in order, nothing skipped and nothing twice. What does
not: a task with a probe has its first output twice in its log (`C85_twice`), and nobody waits for the goroutine that copies, so
a container may have ended, and its task completed, with nothing of its output ever in its log (`C85_lost`).
-/

namespace Tork.Copying

variable {α : Type}

/-- **C85.** Whatever the interleaving, what each of the two has contributed to the log is the beginning of what the container has written. -/
theorem C85_prefix {probe : Bool} {s : State α} (h : Steps probe {} s) (p : Who) : s.copied p <+: s.out := by
  have hi := (inv_steps (inv_init probe) h).part p
  exact ⟨(s.copier p).hand.toList ++ s.out.drop (s.copier p).taken, by
    rw [← List.append_assoc, hi, List.take_append_drop]⟩

/-- **C85.** A task without a probe: the whole log, at any time, is the beginning of what the container has written. -/
theorem C85_alone {s : State α} (h : Steps false {} s) : s.text <+: s.out := by
  have hi := (inv_steps (inv_init false) h).alone rfl
  have hp := C85_prefix h .wait
  have : s.copied .wait = s.text := by
    unfold State.copied State.text
    have hl := hi.2.2
    generalize s.log = l at hl
    induction l with
    | nil => rfl
    | cons e l ih =>
      rw [List.filterMap_cons, if_pos (hl e (.head _)), List.map_cons]
      exact congrArg _ (ih fun e' he => hl e' (.tail _ he))
  exact this ▸ hp

/-- **C85.** One that has come to the end of the stream has contributed all that the container has written. -/
theorem C85_whole {probe : Bool} {s : State α} (h : Steps probe {} s) (p : Who) (hf : (s.copier p).finished = true) :
    s.exited = true ∧ s.copied p = s.out := by
  have hi := inv_steps (inv_init probe) h
  obtain ⟨_, hx, hh, ht⟩ := hi.finished p hf
  have := hi.part p
  rw [hh, ht, List.take_length] at this
  exact ⟨hx, by simpa using this⟩

/-- **C85.** The log consists of the two contributions and of the remarks of the probe; so a piece is there as often as the
two have contributed it. -/
theorem C85_count [DecidableEq α] {probe : Bool} {s : State α} (_ : Steps probe {} s) (x : α) :
    (s.text).count x = (s.copied .probe).count x + (s.copied .wait).count x +
      (s.log.filterMap fun e => if e.1 = none then some e.2 else none).count x := by
  unfold State.copied State.text
  generalize s.log = l
  induction l with
  | nil => rfl
  | cons e l ih =>
    obtain ⟨q, y⟩ := e
    rcases q with _ | p
    · simp only [List.map_cons, List.count_cons, List.filterMap_cons, ih, if_true]
      simp
      omega
    · cases p <;> simp only [List.map_cons, List.count_cons, List.filterMap_cons, ih, if_true] <;> simp <;> omega

/-- A goroutine that reads nothing more. -/
def Copier.Dead (c : Copier α) : Prop := c.closed = true ∨ c.opened = false

theorem Step.kept {probe : Bool} {s t : State α} (hs : Step probe s t) :
    (s.exited = true → t.exited = true ∧ t.out = s.out) ∧
    (∀ ok, s.phase = .returned ok → t.phase = .returned ok) ∧
    (∀ p, (s.copier p).Dead → (∃ ok, s.phase = .returned ok) → (t.copier p).Dead ∧
      t.copied p ++ (t.copier p).hand.toList = s.copied p ++ (s.copier p).hand.toList ∧
      ((s.copier p).hand = none → (t.copier p).hand = none)) := by
  have hcop (q : Who) (c : Copier α) (s : State α) (p : Who) : (s.set q c).copied p = s.copied p := rfl
  cases hs with
  | put p x hh =>
    refine ⟨fun h => ⟨h, rfl⟩, fun ok h => h, fun q hc _ => ?_⟩
    rw [hcop, copied_append]
    by_cases hq : q = p
    · subst hq
      exact ⟨by simpa [State.set, Copier.Dead] using hc, by simp [State.set, hh], fun _ => by simp [State.set]⟩
    · rw [if_neg (fun e => hq (Option.some.inj e).symm), List.append_nil]
      simp [State.set, if_neg hq, hc]
  | remarks x h =>
    refine ⟨fun h => ⟨h, rfl⟩, fun ok h => h, fun q hc ho => ?_⟩
    obtain ⟨ok, ho⟩ := ho
    rw [h] at ho
    cases ho
  | writes x hx =>
    refine ⟨fun h => ?_, fun ok h => h, fun q hc _ => ⟨hc, rfl, id⟩⟩
    rw [hx] at h
    cases h
  | exits => exact ⟨fun h => ⟨rfl, rfl⟩, fun ok h => h, fun q hc _ => ⟨hc, rfl, id⟩⟩
  | read p x ho hc hh hx =>
    refine ⟨fun h => ⟨h, rfl⟩, fun ok h => h, fun q hq _ => ?_⟩
    rw [hcop]
    have hne : q ≠ p := fun e => by
      subst e
      rcases hq with hq | hq
      · rw [hc] at hq; cases hq
      · rw [ho] at hq; cases hq
    simp only [State.set, if_neg hne]
    exact ⟨hq, trivial, id⟩
  | finish p hx ho hc hh hx =>
    refine ⟨fun h => ⟨h, rfl⟩, fun ok h => h, fun q hq _ => ?_⟩
    rw [hcop]
    have hne : q ≠ p := fun e => by
      subst e
      rcases hq with hq | hq
      · rw [hc] at hq; cases hq
      · rw [ho] at hq; cases hq
    simp only [State.set, if_neg hne]
    exact ⟨hq, trivial, id⟩
  | stop p =>
    refine ⟨fun h => ⟨h, rfl⟩, fun ok h => h, fun q hq _ => ?_⟩
    rw [hcop]
    by_cases hne : q = p
    · subst hne
      simp [State.set, Copier.Dead]
    · simp only [State.set, if_neg hne]
      exact ⟨hq, trivial, id⟩
  | _ =>
    refine ⟨fun h => ⟨h, rfl⟩, fun ok h => ?_, fun q hc ho => ?_⟩
    · simp_all
    · obtain ⟨ok, ho⟩ := ho
      simp_all

/-- **C85.** When `Start` has failed, or `Wait` has returned, each of the two adds at most one more piece — the one it has in its hand —
whatever else happens, for ever. -/
theorem C85_rest {probe : Bool} {s t : State α} {ok : Bool} (h : Steps probe {} s) (hr : s.phase = .returned ok) (h' : Steps probe s t)
    (p : Who) : t.copied p = s.copied p ∨ ∃ x, t.copied p = s.copied p ++ [x] := by
  have hi := inv_steps (inv_init probe) h
  have hd : (s.copier p).Dead := by
    cases ho : (s.copier p).opened with
    | false => exact .inr ho
    | true =>
      cases p with
      | probe => exact .inl (hi.probing (by rw [hr]; simp) ho)
      | wait => exact .inl (hi.waiting (by rw [hr]; simp) ho)
  have key : t.phase = .returned ok ∧ (t.copier p).Dead ∧
      t.copied p ++ (t.copier p).hand.toList = s.copied p ++ (s.copier p).hand.toList ∧
      ((s.copier p).hand = none → (t.copier p).hand = none) := by
    clear h hi
    induction h' with
    | refl => exact ⟨hr, hd, rfl, id⟩
    | step _ hs ih =>
      obtain ⟨ih1, ih2, ih3, ih4⟩ := ih
      obtain ⟨_, k2, k3⟩ := hs.kept
      obtain ⟨a, b, c⟩ := k3 p ih2 ⟨ok, ih1⟩
      exact ⟨k2 ok ih1, a, b.trans ih3, fun hn => c (ih4 hn)⟩
  have h1 := key.2.2.1
  have h2 := key.2.2.2
  cases hs : (s.copier p).hand with
  | none =>
    rw [h2 hs, hs] at h1
    exact .inl (by simpa using h1)
  | some x =>
    rw [hs] at h1
    cases ht : (t.copier p).hand with
    | none =>
      rw [ht] at h1
      exact .inr ⟨x, by simpa using h1⟩
    | some y =>
      rw [ht] at h1
      exact .inl (List.append_inj_left' h1 rfl)

/-- **C85.** `Wait` sees the end of the container: what it has written by then is all that it ever writes. -/
theorem C85_over {probe : Bool} {s t : State α} (h : Steps probe {} s) (hr : s.phase = .returned true) (h' : Steps probe s t) :
    s.exited = true ∧ t.out = s.out := by
  have hx := (inv_steps (inv_init probe) h).ended hr
  refine ⟨hx, ?_⟩
  have : t.exited = true ∧ t.out = s.out := by
    clear h
    induction h' with
    | refl => exact ⟨hx, rfl⟩
    | step _ hs ih => exact ⟨(hs.kept.1 ih.1).1, (hs.kept.1 ih.1).2.trans ih.2⟩
  exact this.2

theorem set_set (s : State α) (p : Who) (c c' : Copier α) : (s.set p c).set p c' = s.set p c' := by
  unfold State.set
  congr 1
  funext q
  dsimp only
  split <;> simp_all

theorem set_self (s : State α) (p : Who) : s.set p (s.copier p) = s := by
  have : (fun q => if q = p then s.copier p else s.copier q) = s.copier := by
    funext q
    split <;> simp_all
  unfold State.set
  rw [this]

/-- The container writes these pieces. -/
theorem write_all {probe : Bool} (l : List α) (s : State α) (hx : s.exited = false) : Steps probe s { s with out := s.out ++ l } := by
  induction l generalizing s with
  | nil => rw [List.append_nil]; exact .refl s
  | cons x l ih =>
    have h1 : Steps probe s { s with out := s.out ++ [x] } := (Steps.refl s).step (.writes s x hx)
    have h2 := ih { s with out := s.out ++ [x] } hx
    simp only [List.append_assoc, List.singleton_append] at h2
    exact h1.trans h2

/-- A goroutine copies all that there is. -/
theorem copy_all {probe : Bool} (p : Who) (l : List α) (s : State α) (ho : (s.copier p).opened = true) (hc : (s.copier p).closed = false)
    (hh : (s.copier p).hand = none) (hl : s.out.drop (s.copier p).taken = l) :
    Steps probe s ({ s with log := s.log ++ l.map fun x => (some p, x) }.set p
      { s.copier p with taken := (s.copier p).taken + l.length }) := by
  induction l generalizing s with
  | nil =>
    rw [List.map_nil, List.append_nil]
    exact (set_self s p).symm ▸ .refl s
  | cons x l ih =>
    have hx : s.out[(s.copier p).taken]? = some x := by
      rw [← List.head?_drop, hl]
      rfl
    let s1 := s.set p { s.copier p with taken := (s.copier p).taken + 1, hand := some x }
    have h1 : Step probe s s1 := .read s p x ho hc hh hx
    have hp1 : s1.copier p = { s.copier p with taken := (s.copier p).taken + 1, hand := some x } := by simp [s1, State.set]
    let s2 := { s1 with log := s1.log ++ [(some p, x)] }.set p { s1.copier p with hand := none }
    have h2 : Step probe s1 s2 := .put s1 p x (by rw [hp1])
    have hp2 : s2.copier p = { s.copier p with taken := (s.copier p).taken + 1 } := by
      simp only [s2, State.set, if_true, hp1]
      rw [← hh]
    have hs2 : s2 = { s with log := s.log ++ [(some p, x)] }.set p { s.copier p with taken := (s.copier p).taken + 1 } := by
      have hc' : ({ s1.copier p with hand := none } : Copier α) = { s.copier p with taken := (s.copier p).taken + 1 } := by
        rw [hp1, ← hh]
      show ({ s1 with log := s1.log ++ [(some p, x)] } : State α).set p { s1.copier p with hand := none } = _
      rw [hc']
      exact set_set { s with log := s.log ++ [(some p, x)] } p _ _
    have h3 := ih s2 (by rw [hp2]; exact ho) (by rw [hp2]; exact hc) (by rw [hp2]; exact hh) (by
      rw [hp2]
      show s.out.drop ((s.copier p).taken + 1) = l
      rw [← List.tail_drop, hl]
      rfl)
    refine (((Steps.refl s).step h1).step h2).trans ?_
    have : ({ s2 with log := s2.log ++ l.map fun x => (some p, x) }.set p { s2.copier p with taken := (s2.copier p).taken + l.length }) =
        ({ s with log := s.log ++ (x :: l).map fun x => (some p, x) }.set p
          { s.copier p with taken := (s.copier p).taken + (x :: l).length }) := by
      rw [hp2, hs2]
      refine (set_set { s with log := s.log ++ [(some p, x)] ++ l.map fun x => (some p, x) } p _ _).trans ?_
      simp only [List.append_assoc, List.singleton_append, List.map_cons, List.length_cons, Nat.add_assoc, Nat.add_comm 1]
    exact this ▸ h3

/-- **C85.** The defect: whatever a container writes while its probe is being tried (`a`) and afterwards (`b`), there is a run in
which the probe answers, the container ends well, both goroutines do all that they have to do — and the log has `a` twice. -/
theorem C85_twice (a b : List α) : ∃ s : State α, Steps true {} s ∧ s.phase = .returned true ∧ s.out = a ++ b ∧ s.text = a ++ (a ++ b) := by
  let s1 : State α := ({ ({} : State α) with phase := .probing }).set .probe { opened := true }
  have h1 : Step true {} s1 := .probes {} rfl rfl
  let s2 : State α := { s1 with out := s1.out ++ a }
  have h2 : Steps true s1 s2 := write_all a s1 rfl
  have h3 := copy_all (probe := true) .probe a s2 rfl rfl rfl rfl
  generalize hs3 : ({ s2 with log := s2.log ++ a.map fun x => (some Who.probe, x) }.set .probe
      { s2.copier .probe with taken := (s2.copier .probe).taken + a.length }) = s3 at h3
  have hl3 : s3.log = a.map fun x => (some Who.probe, x) := by rw [← hs3]; rfl
  have ho3 : s3.out = a := by rw [← hs3]; rfl
  have hx3 : s3.exited = false := by rw [← hs3]; rfl
  have hp3 : s3.phase = .probing := by rw [← hs3]; rfl
  let s4 : State α := { s3 with phase := .ready }.set .probe { s3.copier .probe with closed := true }
  have h4 : Step true s3 s4 := .probed s3 hp3
  let s5 : State α := { s4 with phase := .waiting }.set .wait { opened := true }
  have h5 : Step true s4 s5 := .waits s4 rfl
  let s6 : State α := { s5 with out := s5.out ++ b }
  have h6 : Steps true s5 s6 := write_all b s5 hx3
  have ho6 : s6.out = a ++ b := by show s3.out ++ b = _; rw [ho3]
  have h7 := copy_all (probe := true) .wait (a ++ b) s6 rfl rfl rfl ho6
  generalize hs7 : ({ s6 with log := s6.log ++ (a ++ b).map fun x => (some Who.wait, x) }.set .wait
      { s6.copier .wait with taken := (s6.copier .wait).taken + (a ++ b).length }) = s7 at h7
  have hl7 : s7.log = (a.map fun x => (some Who.probe, x)) ++ (a ++ b).map fun x => (some Who.wait, x) := by
    rw [← hs7, ← hl3]; rfl
  have ho7 : s7.out = a ++ b := by rw [← hs7]; exact ho6
  have hp7 : s7.phase = .waiting := by rw [← hs7]; rfl
  let s8 : State α := { s7 with exited := true }
  have h8 : Step true s7 s8 := .exits s7
  have h9 : Step true s8 _ := .ends s8 hp7 rfl
  refine ⟨_, ((((((((Steps.refl _).step h1).trans h2).trans h3).step h4).step h5).trans h6).trans h7).step h8 |>.step h9, rfl, ho7, ?_⟩
  show s7.log.map (·.2) = _
  rw [hl7, List.map_append, List.map_map, List.map_map]
  simp [Function.comp_def]

/-- **C85.** The other defect: whatever a container writes, there is a run in which it ends well and `Wait` returns without an error
— so that the task is completed — and nothing of the output is in the log, then or ever after. -/
theorem C85_lost (l : List α) : ∃ s : State α, Steps false {} s ∧ s.phase = .returned true ∧ s.out = l ∧
    ∀ t, Steps false s t → t.log = [] := by
  let s1 : State α := { ({} : State α) with phase := .ready }
  have h1 : Step false {} s1 := .noProbe {} rfl rfl
  let s2 : State α := { s1 with phase := .waiting }.set .wait { opened := true }
  have h2 : Step false s1 s2 := .waits s1 rfl
  let s3 : State α := { s2 with out := s2.out ++ l }
  have h3 : Steps false s2 s3 := write_all l s2 rfl
  let s4 : State α := { s3 with exited := true }
  have h4 : Step false s3 s4 := .exits s3
  let s5 : State α := { s4 with phase := .returned true }.set .wait { s4.copier .wait with closed := true }
  have h5 : Step false s4 s5 := .ends s4 rfl rfl
  have hr : Steps false {} s5 := ((((Steps.refl _).step h1).step h2).trans h3).step h4 |>.step h5
  refine ⟨s5, hr, rfl, rfl, fun t ht => ?_⟩
  have hi := inv_steps (inv_init false) (hr.trans ht)
  have key : t.phase = .returned true ∧ ∀ p, (t.copier p).Dead ∧ (t.copier p).hand = none ∧ t.copied p = [] := by
    clear hi
    induction ht with
    | refl => exact ⟨rfl, fun p => by cases p <;> exact ⟨by simp [s5, s4, s3, s2, s1, State.set, Copier.Dead], rfl, rfl⟩⟩
    | step _ hs ih =>
      obtain ⟨ih1, ih2⟩ := ih
      obtain ⟨_, k2, k3⟩ := hs.kept
      refine ⟨k2 _ ih1, fun p => ?_⟩
      obtain ⟨a, b, c⟩ := k3 p (ih2 p).1 ⟨_, ih1⟩
      have hn := c (ih2 p).2.1
      rw [hn, (ih2 p).2.1, (ih2 p).2.2] at b
      exact ⟨a, hn, by simpa using b⟩
  have hall := (hi.alone rfl).2.2
  have hw := (key.2 .wait).2.2
  unfold State.copied at hw
  cases hlog : t.log with
  | nil => rfl
  | cons e l =>
    rw [hlog] at hw hall
    rw [List.filterMap_cons, if_pos (hall e (.head _))] at hw
    cases hw

/-! ## Examples -/

/-- The container of `C85_twice`: "starting", "listening" while the probe is tried, "served" afterwards. -/
example : ∃ s : State String, Steps true {} s ∧ s.phase = .returned true ∧ s.out = ["starting", "listening", "served"] ∧
    s.text = ["starting", "listening", "starting", "listening", "served"] :=
  C85_twice ["starting", "listening"] ["served"]

/-- A run without a probe in which all is copied: the hypotheses of `C85_alone` and `C85_whole`, with a log that is the whole output. -/
example : ∃ s : State String, Steps false {} s ∧ (s.copier .wait).finished = true ∧ s.out = ["a", "b"] ∧ s.text = ["a", "b"] := by
  let s1 : State String := { ({} : State String) with phase := .ready }
  let s2 : State String := { s1 with phase := .waiting }.set .wait { opened := true }
  let s3 : State String := { s2 with out := s2.out ++ ["a", "b"] }
  have h := (((((Steps.refl _).step (.noProbe {} rfl rfl : Step false {} s1)).step (.waits s1 rfl : Step false s1 s2)).trans
    (write_all ["a", "b"] s2 rfl)).trans (copy_all .wait ["a", "b"] s3 rfl rfl rfl rfl)).step (.exits _)
  exact ⟨_, h.step (.finish _ .wait rfl rfl rfl rfl rfl), rfl, rfl, rfl⟩

end Tork.Copying
