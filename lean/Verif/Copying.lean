/-!
# Copying the output of a container while it runs — model of `/repo/runtime/docker/tcontainer.go:227-241, 258-314, 319-430`

`Start` starts the container and, if the task has a probe, waits until it answers; `Wait` waits for the container to end. Both copy the
output of the container to the log of the task, each in a goroutine of its own, which runs while the caller goes on. `α` is a piece of output
(a frame of `DockerLogs`, C67).

The shell runtime is the case without a probe: its goroutine copies from a pipe (`/repo/runtime/shell/shell.go:185-189, 198-208`), which `cmd.Wait`
closes as soon as the process has ended (`:240`; `os/exec` says of `StdoutPipe` that it is incorrect to call `Wait` before all reads
have completed): that is `ends` and `waitError`.
-/

namespace Tork.Copying

/-- Who copies: the goroutine of the probe (`tcontainer.go:393-400`), or that of `Wait` (`tcontainer.go:284-289`). -/
inductive Who
  | probe
  | wait
  deriving DecidableEq

/-- A goroutine in `io.Copy`: read a piece, write it to the log, again. -/
structure Copier (α : Type) where
  /-- the stream has been opened (`ContainerLogs` with `Follow`: from the first piece on, `:267-275, 376-384`) -/
  opened : Bool := false
  /-- the stream has been closed by the caller (`:280-284, 388-392`), has ended or broken: nothing more is read -/
  closed : Bool := false
  /-- number of pieces read -/
  taken : Nat := 0
  /-- read, but not yet written to the log -/
  hand : Option α := none
  /-- it has come to the end of the stream of a container that has ended -/
  finished : Bool := false

/-- Where the caller is. -/
inductive Phase
  /-- the container has been started (`:230-235`) -/
  | started
  /-- in `probeContainer` (`:402-429`) -/
  | probing
  /-- `Start` has returned without an error -/
  | ready
  /-- waiting for the container to end (`:290-292`) -/
  | waiting
  /-- `Start` or `Wait` has returned; `ok`: `Wait` has seen the container end -/
  | returned (ok : Bool)
  deriving DecidableEq

structure State (α : Type) where
  /-- what the container has written -/
  out : List α := []
  /-- the container has ended -/
  exited : Bool := false
  phase : Phase := .started
  copier : Who → Copier α := fun _ => {}
  /-- what has been written to the log of the task, and by whom (`none`: remarks of the probe, `:409, 414, 423`) -/
  log : List (Option Who × α) := []

variable {α : Type}

/-- Replace one of the goroutines. -/
def State.set (s : State α) (p : Who) (c : Copier α) : State α := { s with copier := fun q => if q = p then c else s.copier q }

/-- What the container has contributed to the log through `p`. -/
def State.copied (s : State α) (p : Who) : List α := s.log.filterMap fun e => if e.1 = some p then some e.2 else none

/-- The log, as its reader sees it: nobody is named there. -/
def State.text (s : State α) : List α := s.log.map (·.2)

/-- One step of the container, of the caller or of a goroutine; `probe`: the task has a probe. The errors of `probeContainer` before it
opens the stream (`:331-374`) are `unprobed` with nothing copied; the calls after the container has ended (`:295-314`, `DockerRun`) are part
of `ends`, since nothing is copied by them. -/
inductive Step (probe : Bool) : State α → State α → Prop
  /-- the container writes -/
  | writes (s : State α) (x : α) : s.exited = false → Step probe s { s with out := s.out ++ [x] }
  /-- the container ends -/
  | exits (s : State α) : Step probe s { s with exited := true }
  /-- no probe (`:320-322`) -/
  | noProbe (s : State α) : probe = false → s.phase = .started → Step probe s { s with phase := .ready }
  /-- the stream is opened and copied (`:376-400`) -/
  | probes (s : State α) : probe = true → s.phase = .started →
      Step probe s ({ s with phase := .probing }.set .probe { opened := true })
  /-- an error before that (`:331-374`) -/
  | noProbing (s : State α) : probe = true → s.phase = .started → Step probe s { s with phase := .returned false }
  /-- the request cannot be made, fails, or is answered by another status (`:409, 414, 423`) -/
  | remarks (s : State α) (x : α) : s.phase = .probing → Step probe s { s with log := s.log ++ [(none, x)] }
  /-- the probe answers 200: the deferred `Close` (`:388-392, 418-420`) -/
  | probed (s : State α) : s.phase = .probing →
      Step probe s ({ s with phase := .ready }.set .probe { s.copier .probe with closed := true })
  /-- the time is up (`:404-405`) -/
  | unprobed (s : State α) : s.phase = .probing →
      Step probe s ({ s with phase := .returned false }.set .probe { s.copier .probe with closed := true })
  /-- `Wait` opens the stream and copies it (`:267-289`) -/
  | waits (s : State α) : s.phase = .ready → Step probe s ({ s with phase := .waiting }.set .wait { opened := true })
  /-- … or cannot open it (`:276-278`) -/
  | noLogs (s : State α) : s.phase = .ready → Step probe s { s with phase := .returned false }
  /-- the container has ended (`:294-328`): the deferred `Close` (`:280-284`) -/
  | ends (s : State α) : s.phase = .waiting → s.exited = true →
      Step probe s ({ s with phase := .returned true }.set .wait { s.copier .wait with closed := true })
  /-- waiting failed (`:292-293`) -/
  | waitError (s : State α) : s.phase = .waiting →
      Step probe s ({ s with phase := .returned false }.set .wait { s.copier .wait with closed := true })
  /-- a goroutine reads the next piece (`io.Copy`, `:286, 395`) -/
  | read (s : State α) (p : Who) (x : α) : (s.copier p).opened = true → (s.copier p).closed = false → (s.copier p).hand = none →
      s.out[(s.copier p).taken]? = some x →
      Step probe s (s.set p { s.copier p with taken := (s.copier p).taken + 1, hand := some x })
  /-- it writes the piece to the log: also if the stream has been closed since it was read -/
  | put (s : State α) (p : Who) (x : α) : (s.copier p).hand = some x →
      Step probe s ({ s with log := s.log ++ [(some p, x)] }.set p { s.copier p with hand := none })
  /-- it has come to the end of the stream -/
  | finish (s : State α) (p : Who) : s.exited = true → (s.copier p).opened = true → (s.copier p).closed = false →
      (s.copier p).hand = none → (s.copier p).taken = s.out.length →
      Step probe s (s.set p { s.copier p with closed := true, finished := true })
  /-- the connection breaks -/
  | stop (s : State α) (p : Who) : Step probe s (s.set p { s.copier p with closed := true })

/-- Any number of steps. -/
inductive Steps (probe : Bool) : State α → State α → Prop
  | refl (s : State α) : Steps probe s s
  | step {s t u : State α} : Steps probe s t → Step probe t u → Steps probe s u

theorem Steps.trans {probe : Bool} {s t u : State α} (h : Steps probe s t) (h' : Steps probe t u) : Steps probe s u := by
  induction h' with
  | refl => exact h
  | step _ hs ih => exact ih.step hs

/-- The invariant. -/
structure Inv (probe : Bool) (s : State α) : Prop where
  /-- what has been read is what has been written to the log and what is in the hand -/
  part : ∀ p, s.copied p ++ (s.copier p).hand.toList = s.out.take (s.copier p).taken
  within : ∀ p, (s.copier p).taken ≤ s.out.length
  finished : ∀ p, (s.copier p).finished = true →
    (s.copier p).closed = true ∧ s.exited = true ∧ (s.copier p).hand = none ∧ (s.copier p).taken = s.out.length
  unopened : ∀ p, (s.copier p).opened = false → (s.copier p).taken = 0
  alone : probe = false → (s.copier .probe).opened = false ∧ s.phase ≠ .probing ∧ ∀ e ∈ s.log, e.1 = some .wait
  /-- who may be reading -/
  probing : s.phase ≠ .probing → (s.copier .probe).opened = true → (s.copier .probe).closed = true
  waiting : s.phase ≠ .waiting → (s.copier .wait).opened = true → (s.copier .wait).closed = true
  /-- a stream is opened once -/
  fresh : s.phase = .started → (s.copier .probe).opened = false
  freshW : s.phase = .started ∨ s.phase = .probing ∨ s.phase = .ready → (s.copier .wait).opened = false
  ended : s.phase = .returned true → s.exited = true

theorem copied_append (s : State α) (q : Option Who) (x : α) (p : Who) :
    ({ s with log := s.log ++ [(q, x)] } : State α).copied p = s.copied p ++ if q = some p then [x] else [] := by
  unfold State.copied
  rw [List.filterMap_append]
  split <;> rename_i h <;> simp [h]

theorem inv_init (probe : Bool) : Inv probe ({} : State α) := by
  constructor <;> simp [State.copied]

theorem inv_step {probe : Bool} {s t : State α} (h : Inv probe s) (hs : Step probe s t) : Inv probe t := by
  have hcop (q : Who) (c : Copier α) (s : State α) (p : Who) : (s.set q c).copied p = s.copied p := rfl
  have hph (ph : Phase) (s : State α) (p : Who) : ({ s with phase := ph } : State α).copied p = s.copied p := rfl
  obtain ⟨hpart, hwithin, hfin, hun, halone, hprob, hwait, hfresh, hfreshW, hended⟩ := h
  cases hs with
  | writes x hx =>
    refine ⟨fun p => ?_, fun p => ?_, fun p hp => ?_, hun, halone, hprob, hwait, hfresh, hfreshW, hended⟩
    · exact (hpart p).trans (List.take_append_of_le_length (hwithin p)).symm
    · exact Nat.le_trans (hwithin p) (by simp)
    · have := (hfin p hp).2.1
      rw [hx] at this
      cases this
  | exits =>
    exact ⟨hpart, hwithin, fun p hp => ⟨(hfin p hp).1, rfl, (hfin p hp).2.2⟩, hun, halone, hprob, hwait, hfresh, hfreshW, fun _ => rfl⟩
  | noProbe hp hph => refine ⟨hpart, hwithin, hfin, hun, ?_, ?_, ?_, ?_, ?_, ?_⟩ <;> grind
  | noProbing hp hph => refine ⟨hpart, hwithin, hfin, hun, ?_, ?_, ?_, ?_, ?_, ?_⟩ <;> grind
  | noLogs hph => refine ⟨hpart, hwithin, hfin, hun, ?_, ?_, ?_, ?_, ?_, ?_⟩ <;> grind
  | probes hp hph' =>
    refine ⟨fun p => ?_, ?_, ?_, ?_, ?_, ?_, ?_, ?_, ?_, ?_⟩
    · rw [hcop, hph]
      have := hpart p
      have h4 := hun .probe (hfresh hph')
      cases p with
      | wait => exact this
      | probe =>
        rw [h4, List.take_zero] at this
        exact (List.append_eq_nil_iff.1 this).1 ▸ rfl
    all_goals grind [State.set]
  | waits hph' =>
    refine ⟨fun p => ?_, ?_, ?_, ?_, ?_, ?_, ?_, ?_, ?_, ?_⟩
    · rw [hcop, hph]
      have := hpart p
      have h4 := hun .wait (hfreshW (.inr (.inr hph')))
      cases p with
      | probe => exact this
      | wait =>
        rw [h4, List.take_zero] at this
        exact (List.append_eq_nil_iff.1 this).1 ▸ rfl
    all_goals grind [State.set]
  | remarks x hph' =>
    refine ⟨fun p => ?_, hwithin, hfin, hun, ?_, hprob, hwait, hfresh, hfreshW, hended⟩
    · rw [copied_append, if_neg (by simp), List.append_nil]
      exact hpart p
    · grind
  | probed hph' =>
    refine ⟨fun p => ?_, ?_, ?_, ?_, ?_, ?_, ?_, ?_, ?_, ?_⟩
    · rw [hcop, hph]
      have := hpart p
      grind [State.set]
    all_goals grind [State.set]
  | unprobed hph' =>
    refine ⟨fun p => ?_, ?_, ?_, ?_, ?_, ?_, ?_, ?_, ?_, ?_⟩
    · rw [hcop, hph]
      have := hpart p
      grind [State.set]
    all_goals grind [State.set]
  | ends hph' hx =>
    refine ⟨fun p => ?_, ?_, ?_, ?_, ?_, ?_, ?_, ?_, ?_, ?_⟩
    · rw [hcop, hph]
      have := hpart p
      grind [State.set]
    all_goals grind [State.set]
  | waitError hph' =>
    refine ⟨fun p => ?_, ?_, ?_, ?_, ?_, ?_, ?_, ?_, ?_, ?_⟩
    · rw [hcop, hph]
      have := hpart p
      grind [State.set]
    all_goals grind [State.set]
  | read p x ho hc hh hx =>
    obtain ⟨hlt, hx'⟩ := List.getElem?_eq_some_iff.1 hx
    refine ⟨fun q => ?_, ?_, ?_, ?_, ?_, ?_, ?_, ?_, ?_, ?_⟩
    · rw [hcop]
      have := hpart q
      by_cases hq : q = p
      · subst hq
        rw [hh] at this
        simp only [State.set, if_true]
        rw [List.take_succ, hx, ← this]
        simp
      · simpa only [State.set, if_neg hq] using this
    all_goals grind [State.set]
  | put p x hh =>
    have hop : (s.copier p).opened = true := by
      cases h : (s.copier p).opened with
      | true => rfl
      | false =>
        have := hpart p
        rw [hun p h, hh, List.take_zero] at this
        simp at this
    refine ⟨fun q => ?_, ?_, ?_, ?_, ?_, ?_, ?_, ?_, ?_, ?_⟩
    · rw [hcop, copied_append]
      have := hpart q
      by_cases hq : q = p
      · subst hq
        rw [hh] at this
        simp only [State.set, if_true]
        rw [← this]
        simp
      · rw [if_neg (fun e => hq (Option.some.inj e).symm), List.append_nil]
        simpa only [State.set, if_neg hq] using this
    all_goals clear hcop hph
    all_goals clear hpart
    all_goals (cases p <;> grind [State.set])
  | finish p hx ho hc hh ht =>
    refine ⟨fun q => ?_, ?_, fun q hq => ?_, ?_, ?_, ?_, ?_, ?_, ?_, ?_⟩
    · rw [hcop]
      have := hpart q
      grind [State.set]
    all_goals clear hpart hcop hph
    rotate_left
    · by_cases h : q = p
      · subst h
        simp [State.set, hx, hh, ht]
      · simp only [State.set, if_neg h] at hq ⊢
        exact hfin q hq
    all_goals grind [State.set]
  | stop p =>
    refine ⟨fun q => ?_, ?_, ?_, ?_, ?_, ?_, ?_, ?_, ?_, ?_⟩
    · rw [hcop]
      have := hpart q
      grind [State.set]
    all_goals grind [State.set]

theorem inv_steps {probe : Bool} {s t : State α} (h : Inv probe s) (hs : Steps probe s t) : Inv probe t := by
  induction hs with
  | refl => exact h
  | step _ hs ih => exact inv_step ih hs

end Tork.Copying
