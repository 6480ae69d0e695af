import Verif.Props.Lifecycle
import Verif.Trace
import Verif.Frozen
/-!
# What job events say

A small logic for the messages programs publish: `Tells rok p K` — whatever the interference, every job event `p` publishes is true
of the database, given that `K` holds of it now. `K` is a set of databases closed under what the other goroutines do (`Later`).
-/

namespace Tork
open Prog

variable {rok : Nat → Prop}

/-- `b` is a later state of the database than `a`, as far as the states of jobs are concerned: no job is lost, states moved along
edges of the life cycle (`C01`), and the results of COMPLETED jobs did not change. -/
def Later (rok : Nat → Prop) (a b : DS) : Prop := ∀ id x, a.job? id = some x → ∃ y, b.job? id = some y ∧
  JobPath (rok id) x.state y.state ∧ (x.state = .completed → y.result = x.result)

theorem JobPath.trans {R : Prop} {a b c : JobState} (h1 : JobPath R a b) (h2 : JobPath R b c) : JobPath R a c := by
  induction h2 with
  | refl => exact h1
  | step _ he ih => exact .step ih he

theorem Later.refl (a : DS) : Later rok a a := fun _ x h => ⟨x, h, .refl _, fun _ => rfl⟩
theorem path_completed {R : Prop} {s : JobState} (h : JobPath R .completed s) : s = .completed := by
  induction h with
  | refl => rfl
  | step _ he ih =>
    rw [ih] at he
    cases he with
    | complete h => rcases h with h | h <;> cases h
    | fail h => rcases h with h | h <;> cases h
    | cancel h => rcases h with h | h <;> cases h
    | restart _ h => rcases h with h | h <;> cases h

theorem Later.trans {a b c : DS} (h1 : Later rok a b) (h2 : Later rok b c) : Later rok a c := fun id x h => by
  obtain ⟨y, hy, p1, q1⟩ := h1 id x h
  obtain ⟨z, hz, p2, q2⟩ := h2 id y hy
  refine ⟨z, hz, p1.trans p2, fun hx => ?_⟩
  rw [hx] at p1
  rw [q2 (path_completed p1), q1 hx]

/-- A job event is true: it says COMPLETED (FAILED), is published under that topic, and the job was in that state at some
earlier time; an announced completion carries the result that is stored. Other messages are not concerned. -/
def EventOK (rok : Nat → Prop) (d : DS) : Msg → Prop
  | .event topic j => (topic = "job.completed" ∧ j.state = .completed ∨ topic = "job.failed" ∧ j.state = .failed) ∧
      ∃ row, d.job? j.id = some row ∧ JobPath (rok j.id) j.state row.state ∧ (j.state = .completed → row.result = j.result)
  | _ => True

theorem EventOK.mono {a b : DS} {m : Msg} (h : EventOK rok a m) (hl : Later rok a b) : EventOK rok b m := by
  cases m with
  | event topic j =>
    obtain ⟨h1, row, h2, h3, h4⟩ := h
    obtain ⟨y, hy, hp, hq⟩ := hl _ _ h2
    refine ⟨h1, y, hy, h3.trans hp, fun hc => ?_⟩
    rw [hc] at h3
    rw [hq (path_completed h3), h4 hc]
  | _ => trivial

/-- The message announces the completion of job `n`. -/
def Msg.announces (n : Nat) : Msg → Bool
  | .event topic j => topic = "job.completed" && j.id = n
  | _ => false

/-- Job `n` became COMPLETED between `a` and `b`. -/
def Completed (a b : DS) (n : Nat) : Prop :=
  ∃ x y, a.job? n = some x ∧ x.state ≠ .completed ∧ b.job? n = some y ∧ y.state = .completed

/-- `T`: the jobs whose completion `p` may announce, once each; the right is acquired by completing the job. -/
def Tells (rok : Nat → Prop) {α : Type} : Prog α → (DS → Prop) → (Nat → Prop) → Prop
  | .ret _, _, _ => True
  | .db op k, K, _ => (∀ e, Tells rok (k (.error e)) (fun _ => True) fun _ => False) ∧ ∀ ds, K ds →
      (∀ m ∈ (op.run ds).2.2, ∀ topic j, m ≠ .event topic j) ∧ (∀ x ∈ op.partials ds, ∀ m ∈ x.2, ∀ topic j, m ≠ .event topic j) ∧
      Tells rok (k (op.run ds).1) (Later rok (op.run ds).2.1) (Completed ds (op.run ds).2.1)
  | .pub m k, K, T => (∀ ds, K ds → EventOK rok ds m) ∧ (∀ n, m.announces n = true → T n) ∧
      ∀ r, Tells rok (k r) K fun n => T n ∧ m.announces n = false
  | .nondet k, K, T => ∀ n, Tells rok (k n) K T
  | .uuid k, K, T => ∀ n, Tells rok (k n) K T
  | .panic _, _, _ => True

section
variable {α β γ : Type} {K : DS → Prop} {T : Nat → Prop}

theorem Tells.mono {p : Prog α} {K K' : DS → Prop} {T T' : Nat → Prop} (h : Tells rok p K' T') (hk : ∀ d, K d → K' d) (ht : ∀ n, T' n → T n) :
    Tells rok p K T := by
  induction p generalizing K K' T T' with
  | ret a => trivial
  | db op f ih => exact ⟨h.1, fun ds hd => h.2 ds (hk ds hd)⟩
  | pub m f ih => exact ⟨fun ds hd => h.1 ds (hk ds hd), fun n hn => ht n (h.2.1 n hn), fun r => ih r (h.2.2 r) hk fun n hn => ⟨ht n hn.1, hn.2⟩⟩
  | nondet f ih => exact fun n => ih n (h n) hk ht
  | uuid f ih => exact fun n => ih n (h n) hk ht
  | panic e => trivial

/-- Without knowledge of the database. -/
abbrev Tells0 (rok : Nat → Prop) (p : Prog α) : Prop := Tells rok p (fun _ => True) fun _ => False

theorem Tells0.any {p : Prog α} (h : Tells0 rok p) : Tells rok p K T := h.mono (fun _ _ => trivial) fun _ h => h.elim

theorem tells_bind {p : Prog α} {k : α → Prog β} (h : Tells rok p K T) (hk : ∀ a, Tells0 rok (k a)) : Tells rok (p.bind k) K T := by
  induction p generalizing K T with
  | ret a => exact (hk a).any
  | db op f ih => exact ⟨fun e => ih _ (h.1 e), fun ds hd => ⟨(h.2 ds hd).1, (h.2 ds hd).2.1, ih _ (h.2 ds hd).2.2⟩⟩
  | pub m f ih => exact ⟨h.1, h.2.1, fun r => ih r (h.2.2 r)⟩
  | nondet f ih => exact fun r => ih r (h r)
  | uuid f ih => exact fun r => ih r (h r)
  | panic e => trivial

theorem of_msgs (f : DS → Except Err (γ × DS)) (ds : DS) : ((DbOp.of f).run ds).2.2 = [] := by
  simp only [DbOp.of]
  cases f ds <;> rfl

theorem tells_tx {f : DS → Except Err (γ × DS)} {k : Except Err γ → Prog α} (hk : ∀ r, Tells0 rok (k r)) : Tells rok ((tx f).bind k) K T := by
  refine ⟨fun e => hk _, fun ds _ => ⟨fun m hm => ?_, by simp [DbOp.of], (hk _).any⟩⟩
  rw [of_msgs] at hm; cases hm

/-- After a transaction one knows its result and that the database is a later one. -/
theorem tells_tx' {f : DS → Except Err (γ × DS)} {k : Except Err γ → Prog α} (he : ∀ e, Tells0 rok (k (.error e)))
    (hk : ∀ ds g ds', f ds = .ok (g, ds') → Tells rok (k (.ok g)) (Later rok ds') (Completed ds ds')) : Tells rok ((tx f).bind k) K T := by
  refine ⟨he, fun ds _ => ⟨fun m hm => ?_, by simp [DbOp.of], ?_⟩⟩
  · rw [of_msgs] at hm; cases hm
  · show Tells rok (k ((DbOp.of f).run ds).1) (Later rok ((DbOp.of f).run ds).2.1) (Completed ds ((DbOp.of f).run ds).2.1)
    simp only [DbOp.of]
    cases h : f ds with
    | error e => exact (he e).any
    | ok x => obtain ⟨g, ds'⟩ := x; exact hk ds g ds' h

theorem tells_pub {m : Msg} {k : Except Err Unit → Prog α} (hm : ∀ ds, K ds → EventOK rok ds m) (hT : ∀ n, m.announces n = true → T n)
    (hk : ∀ r, Tells0 rok (k r)) : Tells rok ((publish m).bind k) K T := ⟨hm, hT, fun r => (hk r).any⟩
theorem tells_task {q : String} {t : Task} {k : Except Err Unit → Prog α} (hk : ∀ r, Tells rok (k r) K T) :
    Tells rok ((publish (.task q t)).bind k) K T := ⟨fun _ _ => trivial, fun _ h => (by cases h), fun r => (hk r).mono (fun _ h => h) fun _ h => ⟨h, rfl⟩⟩
theorem tells_job {j : Job} {k : Except Err Unit → Prog α} (hk : ∀ r, Tells rok (k r) K T) : Tells rok ((publish (.job j)).bind k) K T :=
  ⟨fun _ _ => trivial, fun _ h => (by cases h), fun r => (hk r).mono (fun _ h => h) fun _ h => ⟨h, rfl⟩⟩
theorem tells_prog {t : Task} {k : Except Err Unit → Prog α} (hk : ∀ r, Tells rok (k r) K T) :
    Tells rok ((publish (.progress t)).bind k) K T := ⟨fun _ _ => trivial, fun _ h => (by cases h), fun r => (hk r).mono (fun _ h => h) fun _ h => ⟨h, rfl⟩⟩
theorem tells_now {k : Nat → Prog α} (hk : ∀ r, Tells rok (k r) K T) : Tells rok (Prog.now.bind k) K T := hk
theorem tells_seed {k : Nat → Prog α} (hk : ∀ r, Tells rok (k r) K T) : Tells rok (Prog.seed.bind k) K T := hk
theorem tells_uuid {k : Nat → Prog α} (hk : ∀ r, Tells rok (k r) K T) : Tells rok (Prog.newUUID.bind k) K T := hk
theorem tells_ret (a : α) : Tells rok (.ret a) K T := trivial
theorem tells_panic (e : String) : Tells rok (.panic e : Prog α) K T := trivial

end

/-- Programs that publish no job events. -/
macro "quiet" : tactic => `(tactic| repeat' first
  | with_reducible exact tells_ret _
  | with_reducible exact tells_panic _
  | assumption
  | (with_reducible refine tells_tx fun r => ?_)
  | (with_reducible refine tells_task fun r => ?_)
  | (with_reducible refine tells_job fun r => ?_)
  | (with_reducible refine tells_prog fun r => ?_)
  | (with_reducible refine tells_now fun r => ?_)
  | (with_reducible refine tells_seed fun r => ?_)
  | (with_reducible refine tells_uuid fun r => ?_)
  | split
  | dsimp only)

theorem tells_cancelLoop (ts : List Task) : Tells0 rok (cancelLoop ts) := by
  induction ts with
  | nil => rw [cancelLoop]; trivial
  | cons t ts ih =>
    rw [cancelLoop]
    simp only [bind_eq, pure_eq]
    quiet

theorem tells_cancelActive (id : Nat) : Tells0 rok (cancelActiveTasks id) := by
  unfold cancelActiveTasks
  simp only [bind_eq, pure_eq]
  refine tells_tx fun r => ?_
  cases r with
  | error e => exact tells_ret _
  | ok ts => exact tells_cancelLoop ts

theorem tells_cancel (j : Job) : Tells0 rok (cancelHandler j) := by
  unfold cancelHandler
  simp only [bind_eq, pure_eq]
  have := tells_cancelActive (rok := rok) j.id
  quiet

theorem tells_failJob (j : Job) : Tells0 rok (failJob j) := by
  unfold failJob
  simp only [bind_eq, pure_eq]
  refine tells_tx fun r => ?_
  cases r with
  | error e => exact tells_ret _
  | ok _ =>
    simp only
    split
    · quiet
    · refine tells_bind (tells_cancelActive _) fun r => ?_
      cases r with
      | some e => exact tells_ret _
      | none =>
        refine tells_tx' (fun e => tells_ret _) fun ds g ds' h => ?_
        simp only
        split
        · rename_i hst
          refine tells_pub (fun d hd => ?_) (fun n hn => by simp [Msg.announces, TOPIC_JOB_FAILED] at hn) fun r => by cases r <;> exact tells_ret _
          obtain ⟨row, hr, hp, hq⟩ := hd g.id g (by have h1 := getJob_ok h; rw [read_getJob _ _ _ _ h, (job?_mem h1).2]; exact h1)
          exact ⟨.inr ⟨rfl, hst⟩, row, hr, hp, hq⟩
        · exact tells_ret _

theorem tells_failToErrorQueue (t : Task) (e : Err) : Tells0 rok (failToErrorQueue t e) := by
  unfold failToErrorQueue
  simp only [bind_eq, pure_eq]
  quiet

theorem tells_scheduleRegular (t : Task) : Tells0 rok (scheduleRegularTask t) := by
  unfold scheduleRegularTask
  simp only [bind_eq, pure_eq]
  quiet

theorem tells_attached (t : Task) (s : SubJobTask Task) : Tells0 rok (scheduleAttachedSubJob t s) := by
  unfold scheduleAttachedSubJob
  simp only [bind_eq, pure_eq]
  quiet

theorem tells_detached (t : Task) (s : SubJobTask Task) : Tells0 rok (scheduleDetachedSubJob t s) := by
  unfold scheduleDetachedSubJob
  simp only [bind_eq, pure_eq]
  quiet

theorem tells_eachLoop (C : Cfg) (j : Job) (now : Nat) (t : Task) (e : EachTask Task) (i : Nat) (l : List String) :
    Tells0 rok (eachLoop C j now t e i l) := by
  induction l generalizing t e i with
  | nil => rw [eachLoop]; exact tells_ret _
  | cons x l ih =>
    rw [eachLoop]
    simp only [bind_eq, pure_eq]
    quiet
    all_goals first | exact ih _ _ _ | exact tells_failToErrorQueue _ _

theorem tells_parLoop (C : Cfg) (t : Task) (j : Job) (now : Nat) (l : List Task) : Tells0 rok (parLoop C t j now l) := by
  induction l with
  | nil => rw [parLoop]; exact tells_ret _
  | cons x l ih =>
    rw [parLoop]
    simp only [bind_eq, pure_eq]
    quiet
    all_goals exact tells_failToErrorQueue _ _

theorem tells_scheduleEach (C : Cfg) (t : Task) (e : EachTask Task) : Tells0 rok (scheduleEachTask C t e) := by
  unfold scheduleEachTask
  simp only [bind_eq, pure_eq]
  quiet
  all_goals first | exact tells_eachLoop _ _ _ _ _ _ _ | exact tells_failToErrorQueue _ _

theorem tells_schedulePar (C : Cfg) (t : Task) (p : ParallelTask Task) : Tells0 rok (scheduleParallelTask C t p) := by
  unfold scheduleParallelTask
  simp only [bind_eq, pure_eq]
  quiet
  all_goals exact tells_parLoop _ _ _ _ _

theorem tells_scheduleTask (C : Cfg) (t : Task) : Tells0 rok (scheduleTask C t) := by
  unfold scheduleTask
  simp only [bind_eq, pure_eq]
  quiet
  all_goals first | exact tells_schedulePar _ _ _ | exact tells_scheduleEach _ _ _ | exact tells_detached _ _ | exact tells_scheduleRegular _ | (refine tells_bind (tells_attached _ _) fun _ => ?_; quiet)

theorem tells_skip (t : Task) : Tells0 rok (skipTask t) := by
  unfold skipTask
  simp only [bind_eq, pure_eq]
  quiet

theorem tells_pending (C : Cfg) (t : Task) : Tells0 rok (pendingHandler C t) := by
  unfold pendingHandler
  quiet
  all_goals first | exact tells_skip _ | exact tells_scheduleTask _ _

theorem tells_start (C : Cfg) (j : Job) : Tells0 rok (startJob C j) := by
  unfold startJob
  simp only [bind_eq, pure_eq]
  refine tells_now fun now => ?_
  split
  · exact tells_panic _
  · refine tells_uuid fun id => tells_seed fun sd => ?_
    refine tells_tx fun r => ?_
    split
    · exact tells_ret _
    · refine tells_now fun n => tells_tx fun r => ?_
      split
      · exact tells_ret _
      · split
        · refine tells_now fun n => ?_
          with_reducible refine tells_bind (tells_failJob _) fun _ => ?_
          with_reducible exact tells_ret _
        · with_reducible refine tells_bind (tells_pending _ _) fun _ => ?_
          with_reducible exact tells_ret _

theorem tells_complete (C : Cfg) (j : Job) : Tells0 rok (completeJob C j) := by
  unfold completeJob
  simp only [bind_eq, pure_eq]
  refine tells_now fun now => tells_seed fun sd => tells_now fun now2 => ?_
  refine tells_tx' (fun e => tells_ret _) fun ds g ds' h => ?_
  obtain ⟨u, u', h1, h2, h3⟩ := updateJob_ok h
  have key : g.id = j.id ∧ u'.state = g.state ∧ (g.state = .completed ∨ g.state = .failed) ∧ (u.state = .running ∨ u.state = .scheduled) ∧
      (g.state = .completed → u'.result = g.result) := by
    unfold completeJobRow at h2
    split at h2
    · cases h2
    · rename_i hu
      have hu : u.state = .running ∨ u.state = .scheduled := by
        by_cases h : u.state = .running
        · exact .inl h
        · exact .inr (Classical.byContradiction fun h' => hu ⟨h, h'⟩)
      split at h2
      · cases h2; exact ⟨rfl, rfl, .inr rfl, hu, fun h => by cases h⟩
      · dsimp only at h2
        split at h2 <;> (cases h2; exact ⟨rfl, rfl, .inl rfl, hu, fun _ => rfl⟩)
  simp only
  split
  · refine Tells0.any ?_
    quiet
  · obtain ⟨k1, k2, k3, k4, k5⟩ := key
    refine tells_pub (fun d hd => ?_) (fun n hn => ?_) fun r => by cases r <;> exact tells_ret _
    rotate_left
    · have hgs : g.state ≠ .failed := fun hg => by rw [hg] at hn; simp [Msg.announces, TOPIC_JOB_FAILED] at hn
      have hgn : g.id = n := by
        simp only [Msg.announces, Bool.and_eq_true, decide_eq_true_eq] at hn; exact hn.2
      rw [← hgn, k1]
      refine ⟨u, persistJob u u', h1, ?_, by rw [h3, job?_setJob, if_pos rfl, h1]; rfl, ?_⟩
      · rcases k4 with k4 | k4 <;> rw [k4] <;> decide
      · show u'.state = _
        rw [k2]; exact k3.resolve_right hgs
    obtain ⟨row, hr, hp, hq⟩ := hd j.id (persistJob u u') (by rw [h3, job?_setJob, if_pos rfl, h1]; rfl)
    refine ⟨?_, row, by rw [k1]; exact hr, ?_, fun hc => ?_⟩
    · rcases k3 with k | k
      · left; rw [k]; exact ⟨rfl, rfl⟩
      · right; rw [k]; exact ⟨rfl, rfl⟩
    · rw [← k2, k1]; exact hp
    · exact (hq (by show u'.state = _; rw [k2]; exact hc)).trans (k5 hc)

theorem tells_markRunning (j : Job) : Tells0 rok (markJobAsRunning j) := by
  unfold markJobAsRunning
  simp only [bind_eq, pure_eq]
  quiet

theorem tells_restart (C : Cfg) (j : Job) : Tells0 rok (restartJob C j) := by
  unfold restartJob
  simp only [bind_eq, pure_eq]
  quiet

theorem tells_jobHandler (C : Cfg) (j : Job) : Tells0 rok (jobHandler C j) := by
  unfold jobHandler
  simp only [bind_eq, pure_eq]
  split
  · exact tells_start _ _
  · exact tells_bind (tells_cancel _) fun _ => tells_ret _
  · exact tells_bind (tells_restart _ _) fun _ => tells_ret _
  · exact tells_complete _ _
  · exact tells_bind (tells_failJob _) fun _ => tells_ret _
  · exact tells_bind (tells_markRunning _) fun _ => tells_ret _
  · exact tells_ret _

theorem tells_error (C : Cfg) (t : Task) : Tells0 rok (errorHandler C t) := by
  unfold errorHandler
  simp only [bind_eq, pure_eq]
  quiet
  all_goals exact tells_failJob _

theorem tells_topLevel (C : Cfg) (t : Task) : Tells0 rok (completeTopLevelTask C t) := by
  unfold completeTopLevelTask
  simp only [bind_eq, pure_eq]
  quiet
  all_goals exact tells_bind (tells_complete _ _) fun _ => tells_ret _

theorem tells_eachTx {α : Type} {K : DS → Prop} {T : Nat → Prop} (t : Task) {k : Except Err Bool → Prog α} (hk : ∀ r, Tells0 rok (k r)) :
    Tells rok ((txOp (eachTx t)).bind k) K T := by
  refine ⟨fun e => hk _, fun ds _ => ⟨?_, ?_, (hk _).any⟩⟩
  · intro m hm topic j
    simp only [eachTx] at hm
    split at hm
    · cases hm
    · split at hm <;> cases hm
    · split at hm <;> (rw [List.mem_singleton.1 hm]; intro h; cases h)
  · intro x hx m hm topic j
    simp only [eachTx] at hx
    split at hx
    · rcases List.mem_cons.1 hx with rfl | hx
      · cases hm
      · rw [List.mem_singleton.1 hx] at hm
        rw [List.mem_singleton.1 hm]; intro h; cases h
    · cases hx

theorem tells_completeTask (C : Cfg) (fuel : Nat) (t : Task) : Tells0 rok (completeTask C fuel t) := by
  induction fuel generalizing t with
  | zero => exact tells_panic _
  | succ fuel ih =>
    rw [completeTask]
    simp only [bind_eq, pure_eq]
    have hk : ∀ r : Except Err Bool, Tells0 rok (match r with
        | .error e => (.ret (some (wrapErr "error completing task" e)) : Prog Res)
        | .ok isLast => if isLast = true then (tx (getTask t.parentID)).bind fun r => match r with
            | .error _ => .ret (some "error fetching the parent task")
            | .ok parent => Prog.now.bind fun now => completeTask C fuel { parent with state := .completed, completedAt := some now }
          else .ret none) := fun r => by
      quiet
      all_goals exact ih _
    split
    · refine tells_tx fun r => ?_
      cases r with
      | error e => exact tells_ret _
      | ok p =>
        simp only
        split
        · exact tells_tx hk
        · exact tells_eachTx t hk
    · exact tells_topLevel _ _

theorem tells_completed (C : Cfg) (fuel : Nat) (t : Task) : Tells0 rok (completedHandler C fuel t) := by
  unfold completedHandler
  simp only [bind_eq, pure_eq]
  quiet
  all_goals exact tells_bind (tells_completeTask _ _ _) fun _ => tells_ret _

theorem tells_started (t : Task) : Tells0 rok (startedHandler t) := by
  unfold startedHandler
  simp only [bind_eq, pure_eq]
  quiet
  all_goals first | (refine tells_bind (tells_markRunning _) fun _ => ?_; quiet) | (refine tells_bind (tells_ret _) fun _ => ?_; quiet)

theorem tells_progress (t : Task) : Tells0 rok (progressHandler t) := by
  unfold progressHandler
  simp only [bind_eq, pure_eq]
  quiet

theorem tells_redelivered (t : Task) : Tells0 rok (redeliveredHandler t) := by
  unfold redeliveredHandler
  simp only [bind_eq, pure_eq]
  quiet

theorem tells_wrapTask (C : Cfg) {h : Task → Prog (Res × Task)} (hh : ∀ t, Tells0 rok (h t)) (t : Task) : Tells0 rok (wrapTask C h t) := by
  unfold wrapTask
  simp only [bind_eq, pure_eq]
  refine tells_bind (hh t) fun r => ?_
  quiet
  all_goals exact tells_error _ _

theorem tells_wrapJob (C : Cfg) (j : Job) : Tells0 rok (wrapJob C j) := by
  unfold wrapJob
  simp only [bind_eq, pure_eq]
  refine tells_bind (tells_jobHandler C j) fun r => ?_
  quiet
  all_goals exact tells_failJob _

theorem tells_coordinator {C : Cfg} {fuel : Nat} {m : Msg} {p : Prog Res} (h : coordinatorHandler C fuel m = some p) : Tells0 rok p := by
  unfold coordinatorHandler at h
  split at h
  · split at h
    · cases h; exact tells_redelivered _
    · split at h
      · cases h; exact tells_wrapTask C (tells_pending C) _
      · split at h
        · cases h; exact tells_wrapTask C (tells_completed C _) _
        · split at h
          · cases h; exact tells_wrapTask C tells_started _
          · split at h
            · cases h
              refine tells_wrapTask C (fun t => ?_) _
              unfold errorHandlerT
              simp only [bind_eq, pure_eq]
              exact tells_bind (tells_error _ _) fun _ => tells_ret _
            · cases h
  · cases h; exact tells_wrapJob _ _
  · cases h; exact tells_wrapTask C tells_progress _
  · cases h

theorem tells_publishProgress (t : Task) (l : List Rat) : Tells0 rok (publishProgress t l) := by
  induction l with
  | nil => exact tells_ret _
  | cons x l ih =>
    rw [publishProgress]
    simp only [bind_eq, pure_eq]
    quiet

theorem tells_worker (C : Cfg) (r : WorkerRun) (t : Task) : Tells0 rok (doHandleTask C r t) := by
  unfold doHandleTask
  simp only [bind_eq, pure_eq]
  refine tells_now fun now => ?_
  refine tells_bind ?_ fun x => by quiet
  unfold workerMw
  simp only [bind_eq, pure_eq]
  split
  · exact tells_ret _
  · refine tells_bind ?_ fun x => tells_ret _
    unfold runTask
    simp only [bind_eq, pure_eq]
    refine tells_task fun x => ?_
    split
    · exact tells_ret _
    · unfold doRunTask
      simp only [bind_eq, pure_eq]
      split
      · exact tells_ret _
      · refine tells_bind (tells_publishProgress _ _) fun x => ?_
        quiet

theorem tells_spawn {E : Env} {p : Prog Unit} (h : Spawn E p) : Tells0 rok p := by
  cases h with
  | submit u j _ =>
    refine tells_bind ?_ fun _ => tells_ret _
    unfold apiSubmit
    simp only [bind_eq, pure_eq]
    quiet
  | cancel id =>
    refine tells_bind ?_ fun _ => tells_ret _
    unfold apiCancel
    simp only [bind_eq, pure_eq]
    quiet
  | restart id _ =>
    refine tells_bind ?_ fun _ => tells_ret _
    unfold apiRestart
    simp only [bind_eq, pure_eq]
    quiet
  | fire s _ =>
    unfold fireScheduled
    simp only [bind_eq, pure_eq]
    quiet

/-! ## Whole systems -/

variable {E : Env}

/-- One step, with the messages published in it by a goroutine. -/
inductive StepL (E : Env) : World → List Msg → World → Prop
  | op (w : World) (a b : List (Prog Unit)) (p p' : Prog Unit) (ds' : DS) (ms : List Msg) (n' : Nat)
      (ht : w.threads = a ++ p :: b) (hp : PStep p w.ds w.next p' ds' ms n') :
      StepL E w ms { ds := ds', msgs := w.msgs ++ ms, threads := a ++ p' :: b, next := n' }
  | crash (w : World) (a b : List (Prog Unit)) (p : Prog Unit) (ht : w.threads = a ++ p :: b) :
      StepL E w [] { w with threads := a ++ b }
  | deliver (w : World) (a b : List Msg) (m : Msg) (p : Prog Res) (hm : w.msgs = a ++ m :: b)
      (hp : coordinatorHandler E.C E.fuel m = some p) :
      StepL E w [] { w with msgs := a ++ b, threads := w.threads ++ [p.discard] }
  | work (w : World) (a b : List Msg) (q : String) (t : Task) (r : WorkerRun)
      (hm : w.msgs = a ++ Msg.task q t :: b) (hq : isTaskQueue q = true) (hr : E.workerOK r) :
      StepL E w [] { w with msgs := a ++ b, threads := w.threads ++ [(doHandleTask E.C r t).discard] }
  | redeliver (w : World) (a b : List Msg) (q : String) (t : Task)
      (hm : w.msgs = a ++ Msg.task q t :: b) (hq : isTaskQueue q = true) :
      StepL E w [] { w with msgs := a ++ b ++ [Msg.task QUEUE_REDELIVERIES t] }
  | lose (w : World) (a b : List Msg) (m : Msg) (hm : w.msgs = a ++ m :: b) : StepL E w [] { w with msgs := a ++ b }
  | dup (w : World) (m : Msg) (hm : m ∈ w.msgs) (hs : m.startsJob = false) : StepL E w [] { w with msgs := w.msgs ++ [m] }
  | spawn (w : World) (p : Prog Unit) (hp : Spawn E p) : StepL E w [] { w with threads := w.threads ++ [p] }
  | nodes (w : World) (ns : List Node) (hq : ∀ n ∈ ns, isExclusiveQueue n.queue = true) :
      StepL E w [] { w with ds := { w.ds with nodes := ns } }

/-- Every step is one of these. -/
theorem step_iff {w w' : World} : Step E w w' ↔ ∃ ms, StepL E w ms w' := by
  constructor
  · intro h
    cases h with
    | op a b p p' ds' ms n' ht hp => exact ⟨ms, .op w a b p p' ds' ms n' ht hp⟩
    | crash a b p ht => exact ⟨_, .crash w a b p ht⟩
    | deliver a b m p hm hp => exact ⟨_, .deliver w a b m p hm hp⟩
    | work a b q t r hm hq hr => exact ⟨_, .work w a b q t r hm hq hr⟩
    | redeliver a b q t hm hq => exact ⟨_, .redeliver w a b q t hm hq⟩
    | lose a b m hm => exact ⟨_, .lose w a b m hm⟩
    | dup m hm hs => exact ⟨_, .dup w m hm hs⟩
    | spawn p hp => exact ⟨_, .spawn w p hp⟩
    | nodes ns hq => exact ⟨_, .nodes w ns hq⟩
  · rintro ⟨ms, h⟩
    cases h with
    | op a b p p' ds' ms n' ht hp => exact .op w a b p p' ds' ms n' ht hp
    | crash a b p ht => exact .crash w a b p ht
    | deliver a b m p hm hp => exact .deliver w a b m p hm hp
    | work a b q t r hm hq hr => exact .work w a b q t r hm hq hr
    | redeliver a b q t hm hq => exact .redeliver w a b q t hm hq
    | lose a b m hm => exact .lose w a b m hm
    | dup m hm hs => exact .dup w m hm hs
    | spawn p hp => exact .spawn w p hp
    | nodes ns hq => exact .nodes w ns hq

/-- A history from the empty system to `w`, with everything published in it, oldest first. -/
inductive Logged (E : Env) : World → List Msg → Prop
  | init : Logged E {} []
  | step {w w' : World} {l ms : List Msg} : Logged E w l → StepL E w ms w' → Logged E w' (l ++ ms)

theorem Logged.reachable {w : World} {l : List Msg} (h : Logged E w l) : Reachable E w := by
  induction h with
  | init => exact .refl _
  | step _ hs ih => exact .tail ih (step_iff.2 ⟨_, hs⟩)

theorem reachable_logged {w : World} (h : Reachable E w) : ∃ l, Logged E w l := by
  have K : ∀ {a b : World}, Steps E a b → (∃ l, Logged E a l) → ∃ l, Logged E b l := fun {a b} h => by
    induction h with
    | refl => exact id
    | tail _ hs ih =>
      intro ha
      obtain ⟨l, hl⟩ := ih ha
      obtain ⟨ms, hs⟩ := step_iff.1 hs
      exact ⟨_, hl.step hs⟩
  exact K h ⟨[], .init⟩

theorem step_later (hE : E.WellFormed) {w w' : World} (hw : Reachable E w) (hs : Step E w w') : Later E.restartOK w.ds w'.ds := fun id a ha => by
  obtain ⟨b, hb, h⟩ := (C01_job_lifecycle hE hw hs).1 id a ha
  refine ⟨b, hb, ?_⟩
  refine ⟨?_, fun hc => ?_⟩
  · rcases h with h | h
    · rw [h]; exact .refl _
    · exact .step (.refl _) h
  · obtain ⟨y, hy, hq⟩ := frozen_step hw hs id a ha hc
    rw [hb] at hy; cases hy; exact hq.result

/-- What is known of a goroutine: a set of databases and the completions it may announce. -/
structure Note where
  K : DS → Prop
  T : Nat → Prop

/-- The note is right about goroutine `p`. -/
structure Note.For (E : Env) (d : DS) (p : Prog Unit) (a : Note) : Prop where
  closed : ∀ x y, a.K x → Later E.restartOK x y → a.K y
  now : a.K d
  tells : Tells E.restartOK p a.K a.T
  done : ∀ n, a.T n → ∃ j, d.job? n = some j ∧ j.state = .completed

theorem completed_later {rok : Nat → Prop} {x y : DS} (hl : Later rok x y) {n : Nat} (h : ∃ j, x.job? n = some j ∧ j.state = .completed) :
    ∃ j, y.job? n = some j ∧ j.state = .completed := by
  obtain ⟨j, h1, h2⟩ := h
  obtain ⟨k, h3, h4, _⟩ := hl n j h1
  rw [h2] at h4
  exact ⟨k, h3, path_completed h4⟩

theorem Note.For.later {d d' : DS} {p : Prog Unit} {a : Note} (h : a.For E d p) (hl : Later E.restartOK d d') : a.For E d' p :=
  ⟨h.closed, h.closed _ _ h.now hl, h.tells, fun n hn => completed_later hl (h.done n hn)⟩

def Note.nothing : Note := ⟨fun _ => True, fun _ => False⟩

theorem note_nothing {d : DS} {p : Prog Unit} (h : Tells0 E.restartOK p) : Note.nothing.For E d p :=
  ⟨fun _ _ _ _ => trivial, trivial, h, fun _ h => h.elim⟩

/-- The invariant: every goroutine has a note, no two may announce the same completion, and none one that was announced. -/
structure EventInv (E : Env) (w : World) (log : List Msg) (ann : List Note) : Prop where
  logged : ∀ m ∈ log, EventOK E.restartOK w.ds m
  msgs : ∀ m ∈ w.msgs, EventOK E.restartOK w.ds m
  threads : All2 (Note.For E w.ds) w.threads ann
  apart : ann.Pairwise fun a b => ∀ n, a.T n → ¬ b.T n
  unsaid : ∀ a ∈ ann, ∀ n, a.T n → ∀ m ∈ log, m.announces n = false
  once : ∀ n, log.countP (Msg.announces n) ≤ 1

/-- What one operation does to a note. -/
theorem tells_pstep {p p' : Prog Unit} {ds ds' : DS} {n n' : Nat} {ms : List Msg} (hp : PStep p ds n p' ds' ms n') (hl : Later E.restartOK ds ds')
    {a : Note} (h : a.For E ds p) : ∃ a' : Note, a'.For E ds' p' ∧ (∀ m ∈ ms, EventOK E.restartOK ds' m) ∧
      (∀ k, a'.T k → a.T k ∨ Completed ds ds' k) ∧
      ((∀ m ∈ ms, ∀ topic j, m ≠ .event topic j) ∨ ∃ m, ms = [m] ∧ ∀ k, m.announces k = true → a.T k ∧ ¬ a'.T k) := by
  obtain ⟨hK, hk, ht, hd⟩ := h
  have hquiet : ∀ {ms : List Msg}, (∀ m ∈ ms, ∀ topic j, m ≠ .event topic j) → ∀ m ∈ ms, EventOK E.restartOK ds' m := fun {ms} h m hm => by
    cases m with
    | event topic j => exact absurd rfl (h _ hm topic j)
    | _ => trivial
  have hkeep : ∀ q, Tells E.restartOK q a.K a.T → a.For E ds' q := fun q hq => ⟨hK, hK _ _ hk hl, hq, fun n hn => completed_later hl (hd n hn)⟩
  have hnil : ∀ m ∈ ([] : List Msg), ∀ topic j, m ≠ .event topic j := fun m hm => (by cases hm)
  cases hp with
  | dbOk op k =>
    refine ⟨⟨_, Completed ds (op.run ds).2.1⟩, ⟨fun _ _ => Later.trans, Later.refl _, (ht.2 _ hk).2.2, ?_⟩, hquiet (ht.2 _ hk).1, fun _ h => .inr h, .inl (ht.2 _ hk).1⟩
    rintro n ⟨x, y, _, _, h3, h4⟩
    exact ⟨y, h3, h4⟩
  | dbFail op k _ _ e => exact ⟨.nothing, note_nothing (ht.1 e), hquiet hnil, fun _ h => h.elim, .inl hnil⟩
  | dbLost op k _ _ e => exact ⟨.nothing, note_nothing (ht.1 e), hquiet (ht.2 _ hk).1, fun _ h => h.elim, .inl (ht.2 _ hk).1⟩
  | dbPartial op k _ _ e x hx => exact ⟨.nothing, note_nothing (ht.1 e), hquiet ((ht.2 _ hk).2.1 x hx), fun _ h => h.elim, .inl ((ht.2 _ hk).2.1 x hx)⟩
  | pubOk m k =>
    refine ⟨⟨a.K, fun n => a.T n ∧ m.announces n = false⟩, ⟨hK, hk, ht.2.2 _, fun n hn => hd n hn.1⟩, fun x hx => (by rw [List.mem_singleton.1 hx]; exact ht.1 _ hk),
      fun _ h => .inl h.1, .inr ⟨m, rfl, fun k hm => ⟨ht.2.1 k hm, fun h => by rw [h.2] at hm; cases hm⟩⟩⟩
  | pubFail m k _ _ e =>
    exact ⟨⟨a.K, fun n => a.T n ∧ m.announces n = false⟩, ⟨hK, hk, ht.2.2 _, fun n hn => hd n hn.1⟩, hquiet hnil, fun _ h => .inl h.1, .inl hnil⟩
  | pubLost m k _ _ e =>
    refine ⟨⟨a.K, fun n => a.T n ∧ m.announces n = false⟩, ⟨hK, hk, ht.2.2 _, fun n hn => hd n hn.1⟩, fun x hx => (by rw [List.mem_singleton.1 hx]; exact ht.1 _ hk),
      fun _ h => .inl h.1, .inr ⟨m, rfl, fun k hm => ⟨ht.2.1 k hm, fun h => by rw [h.2] at hm; cases hm⟩⟩⟩
  | nondet k _ _ x => exact ⟨a, hkeep _ (ht x), hquiet hnil, fun _ h => .inl h, .inl hnil⟩
  | uuid k => exact ⟨a, hkeep _ (ht _), hquiet hnil, fun _ h => .inl h, .inl hnil⟩

theorem all2_right {α β : Type _} {R : α → β → Prop} {a : List α} {l : List β} (h : All2 R a l) : ∀ y ∈ l, ∃ x ∈ a, R x y := by
  induction h with
  | nil => intro y hy; cases hy
  | cons h _ ih =>
    intro y hy
    rcases List.mem_cons.1 hy with rfl | hy
    · exact ⟨_, List.mem_cons_self .., h⟩
    · obtain ⟨x, hx, hr⟩ := ih y hy
      exact ⟨x, List.mem_cons_of_mem _ hx, hr⟩

/-- Who completes a job is the only one who may announce it. -/
theorem EventInv.fresh {w : World} {log : List Msg} {ann : List Note} (h : EventInv E w log ann) {ds' : DS} {k : Nat} (hc : Completed w.ds ds' k) :
    (∀ y ∈ ann, ¬ y.T k) ∧ ∀ m ∈ log, m.announces k = false := by
  obtain ⟨x, y, h1, h2, -, -⟩ := hc
  refine ⟨fun z hz hk => ?_, fun m hm => ?_⟩
  · obtain ⟨p, _, hp⟩ := all2_right h.threads z hz
    obtain ⟨j, h3, h4⟩ := hp.done k hk
    rw [h1] at h3; cases h3; exact h2 h4
  · cases ha : m.announces k with
    | false => rfl
    | true =>
      exfalso
      have hm := h.logged m hm
      cases m with
      | event topic j =>
        simp only [Msg.announces, Bool.and_eq_true, decide_eq_true_eq] at ha
        obtain ⟨h3, row, h4, h5, _⟩ := hm
        rw [ha.2, h1] at h4
        cases h4
        rcases h3 with ⟨_, h3⟩ | ⟨h3, _⟩
        · rw [h3] at h5; exact h2 (path_completed h5)
        · rw [ha.1] at h3; cases (by decide : "job.completed" ≠ "job.failed") h3
      | _ => cases ha

theorem eventInv_step (hE : E.WellFormed) {w w' : World} (hw : Reachable E w) {ms log : List Msg} (hs : StepL E w ms w') {ann : List Note}
    (h : EventInv E w log ann) : ∃ ann', EventInv E w' (log ++ ms) ann' := by
  have hl := step_later hE hw (step_iff.2 ⟨_, hs⟩)
  have hmsg : ∀ m ∈ w.msgs, EventOK E.restartOK w'.ds m := fun m hm => (h.msgs m hm).mono hl
  have hlog : ∀ m ∈ log, EventOK E.restartOK w'.ds m := fun m hm => (h.logged m hm).mono hl
  have hthr : All2 (Note.For E w'.ds) w.threads ann := all2_imp (fun _ _ hx => hx.later hl) h.threads
  have hsubm : ∀ {a b : List Msg} {m : Msg}, w.msgs = a ++ m :: b → ∀ x ∈ a ++ b, x ∈ w.msgs := fun {a b m} e x hx => by
    rw [e]; rcases List.mem_append.1 hx with hx | hx
    · exact List.mem_append_left _ hx
    · exact List.mem_append_right _ (List.mem_cons_of_mem _ hx)
  have hadd : ∀ {q : Prog Unit}, Tells0 E.restartOK q → w'.threads = w.threads ++ [q] → (∀ m ∈ w'.msgs, EventOK E.restartOK w'.ds m) →
      ∃ ann', EventInv E w' (log ++ []) ann' := fun {q} hq ht hm => by
    refine ⟨ann ++ [.nothing], ?_, hm, ?_, ?_, ?_, ?_⟩
    · rw [List.append_nil]; exact hlog
    · rw [ht]; exact all2_append hthr (.cons (note_nothing hq) .nil)
    · refine List.pairwise_append.2 ⟨h.apart, List.pairwise_singleton _ _, fun a _ b hb n _ hn => ?_⟩
      rw [List.mem_singleton.1 hb] at hn; exact hn
    · rw [List.append_nil]
      intro a ha n hn
      rcases List.mem_append.1 ha with ha | ha
      · exact h.unsaid a ha n hn
      · rw [List.mem_singleton.1 ha] at hn; exact hn.elim
    · rw [List.append_nil]; exact h.once
  have hsame : w'.threads = w.threads → (∀ m ∈ w'.msgs, EventOK E.restartOK w'.ds m) → ∃ ann', EventInv E w' (log ++ []) ann' := fun ht hm => by
    rw [List.append_nil]
    exact ⟨ann, hlog, hm, by rw [ht]; exact hthr, h.apart, h.unsaid, h.once⟩
  cases hs with
  | op a b p p' ds' ms n' ht hp =>
    have hthr' := h.threads
    rw [ht] at hthr' 
    obtain ⟨na, x, nb, rfl, e1, e2, e3⟩ := all2_split hthr'
    obtain ⟨x', f1, f2, f3, f4⟩ := tells_pstep hp hl e2
    have hap := List.pairwise_append.1 h.apart
    have hap2 := List.pairwise_cons.1 hap.2.1
    have hxm : x ∈ na ++ x :: nb := List.mem_append_right _ (List.mem_cons_self ..)
    have hnam : ∀ y ∈ na, y ∈ na ++ x :: nb := fun y hy => List.mem_append_left _ hy
    have hnbm : ∀ y ∈ nb, y ∈ na ++ x :: nb := fun y hy => List.mem_append_right _ (List.mem_cons_of_mem _ hy)
    have hx1 : ∀ y ∈ na, ∀ n, y.T n → ¬ x.T n := fun y hy => hap.2.2 y hy x (List.mem_cons_self ..)
    have hx2 : ∀ y ∈ nb, ∀ n, x.T n → ¬ y.T n := fun y hy => hap2.1 y hy
    have hsay : ∀ m ∈ ms, ∀ k, m.announces k = true → x.T k ∧ ¬ x'.T k := fun m hm k hk => by
      rcases f4 with f4 | ⟨m', rfl, f4⟩
      · cases m with
        | event topic j => exact absurd rfl (f4 _ hm topic j)
        | _ => cases hk
      · rw [List.mem_singleton.1 hm] at hk; exact f4 k hk
    have hlen : ms.length ≤ 1 ∨ ∀ m ∈ ms, ∀ k, m.announces k = false := by
      rcases f4 with f4 | ⟨m', rfl, f4⟩
      · refine .inr fun m hm k => ?_
        cases m with
        | event topic j => exact absurd rfl (f4 _ hm topic j)
        | _ => rfl
      · exact .inl (Nat.le_refl _)
    refine ⟨na ++ x' :: nb, ?_, ?_, ?_, ?_, ?_, ?_⟩
    · intro m hm
      rcases List.mem_append.1 hm with hm | hm
      · exact hlog m hm
      · exact f2 m hm
    · intro m hm
      rcases List.mem_append.1 hm with hm | hm
      · exact hmsg m hm
      · exact f2 m hm
    · exact all2_append (all2_imp (fun _ _ hx => hx.later hl) e1) (.cons f1 (all2_imp (fun _ _ hx => hx.later hl) e3))
    · refine List.pairwise_append.2 ⟨hap.1, List.pairwise_cons.2 ⟨fun y hy n hn => ?_, hap2.2⟩, fun y hy z hz n hn => ?_⟩
      · rcases f3 n hn with g | g
        · exact hx2 y hy n g
        · exact (h.fresh g).1 y (hnbm y hy)
      · rcases List.mem_cons.1 hz with rfl | hz
        · intro hz
          rcases f3 n hz with g | g
          · exact hx1 y hy n hn g
          · exact (h.fresh g).1 y (hnam y hy) hn
        · exact hap.2.2 y hy z (List.mem_cons_of_mem _ hz) n hn
    · intro y hy n hn m hm
      rcases List.mem_append.1 hm with hm | hm
      · rcases List.mem_append.1 hy with hy | hy
        · exact h.unsaid y (hnam y hy) n hn m hm
        rcases List.mem_cons.1 hy with rfl | hy
        · rcases f3 n hn with g | g
          · exact h.unsaid x hxm n g m hm
          · exact (h.fresh g).2 m hm
        · exact h.unsaid y (hnbm y hy) n hn m hm
      · cases ha : m.announces n with
        | false => rfl
        | true =>
          exfalso
          have g := hsay m hm n ha
          rcases List.mem_append.1 hy with hy | hy
          · exact hx1 y hy n hn g.1
          rcases List.mem_cons.1 hy with rfl | hy
          · exact g.2 hn
          · exact hx2 y hy n g.1 hn
    · intro n
      rw [List.countP_append]
      by_cases hc : ms.countP (Msg.announces n) = 0
      · have := h.once n; omega
      · obtain ⟨m, hm, ha⟩ := List.countP_pos_iff.1 (Nat.pos_of_ne_zero hc)
        have g := hsay m hm n ha
        have h0 : log.countP (Msg.announces n) = 0 := List.countP_eq_zero.2 fun m hm => by
          rw [h.unsaid x hxm n g.1 m hm]; exact Bool.false_ne_true
        have h1 := List.countP_le_length (p := Msg.announces n) (l := ms)
        rcases hlen with hlen | hlen
        · omega
        · rw [hlen m hm n] at ha; cases ha
  | crash a b p ht =>
    have hthr' := h.threads
    rw [ht] at hthr'
    obtain ⟨na, x, nb, rfl, e1, e2, e3⟩ := all2_split hthr'
    rw [List.append_nil]
    have hsub : (na ++ nb).Sublist (na ++ x :: nb) := List.Sublist.append (List.Sublist.refl _) (List.sublist_cons_self _ _)
    exact ⟨na ++ nb, hlog, hmsg, all2_append e1 e3, h.apart.sublist hsub, fun y hy => h.unsaid y (hsub.subset hy), h.once⟩
  | deliver a b m p hm hp => exact hadd (tells_bind (tells_coordinator hp) fun _ => tells_ret _) rfl fun x hx => hmsg x (hsubm hm x hx)
  | work a b q t r hm hq hr => exact hadd (tells_bind (tells_worker _ _ _) fun _ => tells_ret _) rfl fun x hx => hmsg x (hsubm hm x hx)
  | redeliver a b q t hm hq =>
    refine hsame rfl fun x hx => ?_
    rcases List.mem_append.1 hx with hx | hx
    · exact hmsg x (hsubm hm x hx)
    · rw [List.mem_singleton.1 hx]; trivial
  | lose a b m hm => exact hsame rfl fun x hx => hmsg x (hsubm hm x hx)
  | dup m hm hs =>
    refine hsame rfl fun x hx => ?_
    rcases List.mem_append.1 hx with hx | hx
    · exact hmsg x hx
    · rw [List.mem_singleton.1 hx]; exact hmsg m hm
  | spawn p hp => exact hadd (tells_spawn hp) rfl hmsg
  | nodes ns hq => exact hsame rfl hmsg

/-- In every history everything published is true and each completion is announced at most once. -/
theorem eventInv_logged (hE : E.WellFormed) {w : World} {log : List Msg} (h : Logged E w log) : ∃ ann, EventInv E w log ann := by
  induction h with
  | init => exact ⟨[], fun m hm => (by cases hm), fun m hm => (by cases hm), .nil, .nil, fun a ha => (by cases ha), fun _ => Nat.zero_le _⟩
  | step hr hs ih =>
    obtain ⟨ann, h⟩ := ih
    exact eventInv_step hE hr.reachable hs h

end Tork
