import Verif.Props.Sequence
import Verif.Props.Schedule
/-!
# C82: results are what the work produced

Specification: `OriginSpec.lean` (`RunsTo`, `Worked`, `SubOutput`, `Leaf`).
-/

namespace Tork
open Origin

variable {E : Env}

/-- C82: the result of a COMPLETED task is what a worker ended with when it ran this very task, or the output of its sub-job, evaluated in a
context the sub-job had when it had passed its last task. (Postgres and SQLite drop the NUL characters of a text: `sanitizeString`.) -/
theorem C82_results (hE : E.WellFormed) {w : World} (hw : Reachable E w) {n : Nat} {t : Task} (h : w.ds.task? n = some t)
    (hc : t.state = .completed) (hl : Leaf t) :
    ∃ v, t.result = sanitizeString v ∧
      ((t.subJob = none ∧ ¬ IsFalse t.cond ∧ Worked E t v) ∨ (∃ s, t.subJob = some s ∧ s.detached = false) ∧ SubOutput E w t v) := by
  obtain ⟨G, o, hi⟩ := oinv_reachable hw
  obtain ⟨v, h1, h2⟩ := (hi.inv.ends n t h).1 hc
  refine ⟨v, h1, ?_⟩
  rcases h2 hl with h3 | ⟨m, d, p, c, sd, k1, k2, k3, k4, k5, k6⟩
  · exact .inl ⟨h3.1, fun hf => h3.2.1 ((trim_false _).2 hf), h3.2.2⟩
  · obtain ⟨j, hj⟩ := (hi.inv.stored m).1 k1
    have hok := (hi.inv.jobs m j hj).1
    have hid : j.id = m := (job?_mem hj).2
    rw [hid, k2] at hok
    cases hok
    obtain ⟨w0, j0, g1, g2, g3, g4, g5⟩ := hi.snaps m p c k4 k1
    have hn : n ≠ 0 := row_nz hE hw h
    have ht : t.id = n := (task?_mem h).2
    refine .inr ⟨?_, m, j, w0, j0, sd, hj, k3, g1, g2, g3, by rw [g4]; exact k5, by rw [g5]; exact k6⟩
    rcases C80_jobs hw hj with ⟨q, q1, -, -, -, -, q2⟩ | ⟨q, -, -, -, -, -, q2⟩ | ⟨u, s, -, ⟨r, r1, r2⟩, u1, -, -, -, -, -, u2⟩
    · rw [k3, (hE.submit q q1).1, ht] at q2; exact absurd q2 hn
    · rw [k3, ht] at q2; exact absurd q2 hn
    · rcases u2 with ⟨-, u2⟩ | ⟨-, -, u2⟩
      · have : u.id = n := by rw [← u2, ← ht]; exact k3
        rw [this, h] at r1
        cases r1
        have hs : t.subJob.map subDef = u.subJob.map subDef := congrArg Task.subJob r2.1
        rw [u1] at hs
        cases h5 : t.subJob with
        | none => rw [h5] at hs; cases hs
        | some x => exact ⟨x, rfl, hl.2.2 x h5⟩
      · rw [k3, ht] at u2; exact absurd u2 hn

/-- C82: without middleware in the workers the result of a COMPLETED task without sub-job is what its own run returned, and this run did
not fail: the result of another task, of a failed run or of a run that did not take place is never stored. -/
theorem C82_own_run (hE : E.WellFormed) (hm : ∀ r, E.workerOK r → r.pre = id ∧ r.stop = none ∧ r.post = fun x t => (x, t)) {w : World}
    (hw : Reachable E w) {n : Nat} {t : Task} (h : w.ds.task? n = some t) (hc : t.state = .completed) (hl : Leaf t) (hs : t.subJob = none) :
    ∃ r u, E.workerOK r ∧ SameWork t u ∧ (r.run u).1 = none ∧ t.result = sanitizeString (r.run u).2.result := by
  obtain ⟨v, h1, h2⟩ := C82_results hE hw h hc hl
  rcases h2 with ⟨-, -, r, u, z, hr, hu, hz, hz1, rfl⟩ | ⟨⟨s, h3, -⟩, -⟩
  · obtain ⟨m1, m2, m3⟩ := hm r hr
    refine ⟨r, u, hr, hu, ?_⟩
    generalize hp : (none, z) = p at hz
    cases hz with
    | stopped x hx => rw [m2] at hx; cases hx
    | refused e => rw [m3] at hp; cases hp
    | failed e now _ he => rw [m3] at hp; cases hp; cases hz1
    | ran now _ he =>
      rw [m3, m1] at hp
      cases hp
      rw [m1] at he
      exact ⟨he, h1⟩
  · rw [hs] at h3; cases h3

/-- C82: the result of a COMPLETED task with an attached sub-job is the output the sub-job was defined with at the task, evaluated in a
context of a stored job that is the sub-job of this task. -/
theorem C82_sub_job (hE : E.WellFormed) {w : World} (hw : Reachable E w) {n : Nat} {t : Task} {q : SubJobTask Task}
    (h : w.ds.task? n = some t) (hc : t.state = .completed) (hl : Leaf t) (hq : t.subJob = some q) :
    ∃ m s w0 s0 sd v, w.ds.job? m = some s ∧ s.parentID = n ∧ s.output = q.output ∧ Reachable E w0 ∧ Steps E w0 w ∧
      w0.ds.job? m = some s0 ∧ s.tasks.length < s0.position ∧ evaluateTemplate E.C.O ⟨s0.context, none⟩ sd q.output = .ok v ∧
      t.result = sanitizeString v := by
  obtain ⟨v, h1, h2⟩ := C82_results hE hw h hc hl
  rcases h2 with ⟨h3, -⟩ | ⟨-, m, s, w0, s0, sd, k1, k2, k3, k4, k5, k6, k7⟩
  · rw [hq] at h3; cases h3
  · have hn : n ≠ 0 := row_nz hE hw h
    have ht : t.id = n := (task?_mem h).2
    have ho : s.output = q.output := by
      rcases C80_jobs hw k1 with ⟨x, x1, -, -, -, -, x2⟩ | ⟨x, -, -, -, -, -, x2⟩ | ⟨u, x, -, ⟨r, r1, r2⟩, u1, -, -, u3, -, -, u2⟩
      · have x2 : s.parentID = x.parentID := x2
        rw [k2, (hE.submit x x1).1, ht] at x2; exact absurd x2 hn
      · have x2 : s.parentID = 0 := x2
        rw [k2, ht] at x2; exact absurd x2 hn
      · rcases u2 with ⟨-, u2⟩ | ⟨-, -, u2⟩
        · have u2 : s.parentID = u.id := u2
          have : u.id = n := by rw [← u2, k2, ht]
          rw [this, h] at r1
          cases r1
          have hs : t.subJob.map subDef = u.subJob.map subDef := congrArg Task.subJob r2.1
          rw [u1, hq] at hs
          have : (subDef q).output = (subDef x).output := congrArg SubJobTask.output (Option.some.inj hs)
          exact u3.trans this.symm
        · have u2 : s.parentID = 0 := u2
          rw [k2, ht] at u2; exact absurd u2 hn
    exact ⟨m, s, w0, s0, sd, v, k1, by rw [k2, ht], ho, k3, k4, k5, k6, by rw [← ho]; exact k7, h1⟩

namespace SeqEx
open OriginEx

/-- C82 applies to the tasks of the job of `whole_final`: the third task ended with what its own run returned. -/
example : ∃ t, Reachable wsys whole_final ∧ whole_final.ds.task? 4 = some t ∧ t.state = .completed ∧ Leaf t ∧ t.result = "x" ∧ t.env = [("Y", "y")] ∧
    ∃ r u, wsys.workerOK r ∧ SameWork t u ∧ (r.run u).1 = none ∧ t.result = sanitizeString (r.run u).2.result := by
  have ht : (whole_final.ds.task? 4).any (fun t => decide (t.state = .completed) && t.result == "x" && decide (t.env = [("Y", "y")]) &&
    t.parallel.isNone && t.each.isNone && t.subJob.isNone) = true := by decide +kernel
  have hr : Reachable wsys whole_final := steps_playAll all_allowed (by decide +kernel)
  revert ht hr
  generalize whole_final = w
  intro ht hr
  obtain ⟨t, h1, h2⟩ := (Option.any_eq_true _ _).1 ht
  simp only [Bool.and_eq_true, beq_iff_eq, decide_eq_true_eq, Option.isNone_iff_eq_none] at h2
  obtain ⟨⟨⟨⟨⟨a1, a2⟩, a3⟩, a4⟩, a5⟩, a6⟩ := h2
  have hl : Leaf t := ⟨a4, a5, fun s hs => by rw [a6] at hs; cases hs⟩
  exact ⟨t, hr, h1, a1, hl, a2, a3, C82_own_run wsys_wf (fun r hr => by rcases hr with rfl | rfl | rfl <;> exact ⟨rfl, rfl, rfl⟩) hr h1 a1 hl a6⟩

/-- A task that runs a job. -/
def outer : Task := { name := "outer", var := "b", subJob := some { name := "inner", tasks := [first], output := "got {{ tasks.a }}" } }
def osys : Env := { sys [outer] with fuel := 5 }

theorem osys_wf : osys.WellFormed where
  submit j hj := by
    cases hj
    refine ⟨rfl, fun t ht => ?_⟩
    rw [List.mem_singleton.1 ht]
    refine ⟨(fun _ h => nomatch h), rfl, rfl, (fun _ h => nomatch h), (fun _ h => nomatch h), (fun _ h => nomatch h), (fun _ h => nomatch h),
      fun s hs c hc => ?_⟩
    cases hs
    rw [List.mem_singleton.1 hc]
    exact abc_fresh _ (.head _)
  fire _ h := h.elim
  worker w hw t := (sys_wf abc_fresh).worker w hw t

def oacts : List Play :=
  [.nodes [node], .submit (three [outer]), .deliver 0, .deliver 0, .work 0 (ok "x"), .deliver 0, .deliver 0, .deliver 0]

theorem oacts_allowed : ∀ a ∈ oacts, a.allowed osys := fun a ha => by
  simp only [oacts, List.mem_cons, List.not_mem_nil, or_false] at ha
  rcases ha with rfl | rfl | rfl | rfl | rfl | rfl | rfl | rfl <;> simp [Play.allowed, osys, sys]

def outer_final : World := playAll osys {} oacts

/-- C82 applies: the task has ended with the output of its sub-job, in which the result of the sub-job's task is. -/
example : ∃ t q, Reachable osys outer_final ∧ outer_final.ds.task? 2 = some t ∧ t.state = .completed ∧ Leaf t ∧ t.subJob = some q ∧
    t.result = "got x" ∧ q.output = "got {{ tasks.a }}" ∧
    ∃ m s w0 s0 sd v, outer_final.ds.job? m = some s ∧ s.parentID = 2 ∧ s.output = q.output ∧ Reachable osys w0 ∧
      Steps osys w0 outer_final ∧ w0.ds.job? m = some s0 ∧ s.tasks.length < s0.position ∧
      evaluateTemplate osys.C.O ⟨s0.context, none⟩ sd q.output = .ok v ∧ t.result = sanitizeString v := by
  have ht : (outer_final.ds.task? 2).any (fun t => decide (t.state = .completed) && t.result == "got x" && t.parallel.isNone && t.each.isNone &&
    t.subJob.any fun q => q.output == "got {{ tasks.a }}" && !q.detached) = true := by decide +kernel
  have hr : Reachable osys outer_final := steps_playAll oacts_allowed (by decide +kernel)
  revert ht hr
  generalize outer_final = w
  intro ht hr
  obtain ⟨t, h1, h2⟩ := (Option.any_eq_true _ _).1 ht
  simp only [Bool.and_eq_true, beq_iff_eq, decide_eq_true_eq, Option.isNone_iff_eq_none] at h2
  obtain ⟨⟨⟨⟨a1, a2⟩, a3⟩, a4⟩, h3⟩ := h2
  obtain ⟨q, h4, h5⟩ := (Option.any_eq_true _ _).1 h3
  simp only [Bool.and_eq_true, beq_iff_eq, Bool.not_eq_true'] at h5
  have hl : Leaf t := ⟨a3, a4, fun s hs => by rw [h4] at hs; cases hs; exact h5.2⟩
  exact ⟨t, q, hr, h1, a1, hl, h4, a2, h5.1, C82_sub_job osys_wf hr h1 a1 hl h4⟩

end SeqEx

end Tork
