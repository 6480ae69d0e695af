import Verif.CalmWorld
/-!
# Well-formed composite tasks

`Sound C n t` is what is assumed of a submitted task, with at most `n` levels of nesting: literal queue names, retries only if
evaluation is total, and no composite that is empty: parallel and sub-job sections have a task, and the list of an each task
never evaluates to the empty list (an each task over an empty list hangs, see `C52_empty_each_defect`).
-/

namespace Tork.Flow
open Prog Calm

/-- The list expression never evaluates to the empty list. -/
def NonEmptyList (C : Cfg) (l : String) : Prop :=
  ∀ ctx sd v xs, evaluateExpr C.O ctx sd l = .ok v → v.items = some xs → xs ≠ []

/-- A task as submitted: no parent, no worker node, no sub-job started. -/
structure Virgin (t : Task) : Prop where
  parent : t.parentID = 0
  node : t.nodeID = 0
  sub : subJobRef t = 0

/-- A task, possibly composite, of nesting depth at most `n`. -/
def Sound (C : Cfg) : Nat → Task → Prop
  | 0, _ => False
  | n + 1, t => LiteralQueue t.queue ∧ RetryFine C t.retry ∧
    (∀ p, t.parallel = some p → p.tasks ≠ [] ∧ ∀ x ∈ p.tasks, Sound C n x) ∧
    (∀ e, t.each = some e → NonEmptyList C e.list ∧ Sound C n e.task) ∧
    (∀ s, t.subJob = some s → s.tasks ≠ [] ∧ ∀ x ∈ s.tasks, Virgin x ∧ Sound C n x)

variable {C : Cfg} {n : Nat}

theorem Sound.pos {t : Task} (h : Sound C n t) : 1 ≤ n := by
  cases n with
  | zero => exact h.elim
  | succ n => omega

theorem Sound.queue {t : Task} (h : Sound C n t) : LiteralQueue t.queue := by
  cases n with
  | zero => exact h.elim
  | succ n => exact h.1

theorem Sound.retry {t : Task} (h : Sound C n t) : RetryFine C t.retry := by
  cases n with
  | zero => exact h.elim
  | succ n => exact h.2.1

theorem Sound.mono {t : Task} {m : Nat} (h : Sound C n t) (hl : n ≤ m) : Sound C m t := by
  induction n generalizing t m with
  | zero => exact h.elim
  | succ n ih =>
    cases m with
    | zero => omega
    | succ m =>
      obtain ⟨h1, h2, h3, h4, h5⟩ := h
      exact ⟨h1, h2, fun p hp => ⟨(h3 p hp).1, fun x hx => ih ((h3 p hp).2 x hx) (by omega)⟩,
        fun e he => ⟨(h4 e he).1, ih (h4 e he).2 (by omega)⟩,
        fun s hs => ⟨(h5 s hs).1, fun x hx => ⟨((h5 s hs).2 x hx).1, ih ((h5 s hs).2 x hx).2 (by omega)⟩⟩⟩

/-- A change of the fields that do not matter here. -/
theorem Sound.upd {t u : Task} (h : Sound C n t) (h1 : LiteralQueue u.queue) (h2 : RetryFine C u.retry)
    (h3 : u.parallel = t.parallel) (h4 : u.each = t.each) (h5 : u.subJob = t.subJob) : Sound C n u := by
  cases n with
  | zero => exact h.elim
  | succ n =>
    obtain ⟨_, _, k3, k4, k5⟩ := h
    exact ⟨h1, h2, by rw [h3]; exact k3, by rw [h4]; exact k4, by rw [h5]; exact k5⟩

/-- The sections may change their counters. -/
theorem Sound.upd' {t u : Task} (h : Sound C n t) (h1 : LiteralQueue u.queue) (h2 : RetryFine C u.retry)
    (h3 : ∀ p, u.parallel = some p → ∃ p0, t.parallel = some p0 ∧ p.tasks = p0.tasks)
    (h4 : ∀ e, u.each = some e → ∃ e0, t.each = some e0 ∧ e.list = e0.list ∧ e.task = e0.task)
    (h5 : ∀ s, u.subJob = some s → ∃ s0, t.subJob = some s0 ∧ s.tasks = s0.tasks) : Sound C n u := by
  cases n with
  | zero => exact h.elim
  | succ n =>
    obtain ⟨_, _, k3, k4, k5⟩ := h
    refine ⟨h1, h2, fun p hp => ?_, fun e he => ?_, fun s hs => ?_⟩
    · obtain ⟨p0, a, b⟩ := h3 p hp; rw [b]; exact k3 p0 a
    · obtain ⟨p0, a, b, c⟩ := h4 e he; rw [b, c]; exact k4 p0 a
    · obtain ⟨p0, a, b⟩ := h5 s hs; rw [b]; exact k5 p0 a

theorem evalTasks_length (tm : String → Except Err String) (ts : List Task) : (evalTasks tm ts).1.length = ts.length := by
  induction ts with
  | nil => rw [evalTasks]
  | cons t ts ih =>
    rw [evalTasks]
    rcases evaluateTask tm t with ⟨t', e⟩
    cases e with
    | some e => rfl
    | none => simpa using ih

theorem sound_evaluate {t : Task} (h : Sound C n t) (c : Ctx) (sd : Nat) :
    Sound C n (evaluateTask (evaluateTemplate C.O c sd) t).1 := by
  induction n generalizing t with
  | zero => exact h.elim
  | succ n ih =>
    obtain ⟨h1, h2, h3, h4, h5⟩ := h
    obtain ⟨hf, hp⟩ := evaluateTask_frame (evaluateTemplate C.O c sd) t
    have hq := evaluateTask_queue (literal_eval (C := C) h1 c sd)
    refine ⟨by rw [hq]; exact h1, by rw [hf.retry]; exact h2, fun p hpp => ?_, by rw [hf.each]; exact h4, fun s hs => ?_⟩
    · rcases hp with hp | ⟨p0, k1, k2⟩
      · exact h3 p (by rw [← hp, hpp])
      · rw [k2] at hpp; cases hpp
        obtain ⟨k3, k4⟩ := h3 p0 k1
        refine ⟨fun hn => k3 ?_, fun x hx => ?_⟩
        · have := evalTasks_length (evaluateTemplate C.O c sd) p0.tasks
          have hn : (evalTasks (evaluateTemplate C.O c sd) p0.tasks).1 = [] := hn
          rw [hn] at this
          exact List.length_eq_zero_iff.1 this.symm
        · rcases mem_evalTasks hx with h6 | ⟨c0, h6, rfl⟩
          · exact k4 x h6
          · exact ih (k4 c0 h6)
    · obtain ⟨s0, k1, k2⟩ := hf.subT s hs
      rw [k2]; exact h5 s0 k1

theorem subRef_clone (t : Task) : subJobRef t.clone = subJobRef t := by
  cases t with
  | mk id jobID parentID position name description state createdAt scheduledAt startedAt completedAt
    failedAt cmd entrypoint run image registry env files queue redelivered error pre post sidecars
    mounts networks nodeID retry limits timeout result var cond parallel each subJob gpus tags workdir
    priority progress probe =>
  rw [Task.clone]
  cases subJob with
  | none => unfold subJobRef; dsimp only; rw [cloneSubJob]
  | some s => cases s; unfold subJobRef; dsimp only; rw [cloneSubJob]

theorem evalSubJob_id (tm : String → Except Err String) (s : SubJobTask Task) :
    (evalSubJob tm s).1.id = s.id := by
  unfold evalSubJob
  repeat' split
  all_goals rfl

theorem subRef_start (tm : String → Except Err String) (t : Task) : (evalTaskStart tm t).1.subJob = t.subJob := by
  unfold evalTaskStart
  repeat' split
  all_goals rfl

theorem subRef_end (tm : String → Except Err String) (t : Task) : subJobRef (evalTaskEnd tm t).1 = subJobRef t := by
  unfold evalTaskEnd
  split
  · rfl
  · split
    · rfl
    · rename_i s hs
      unfold subJobRef
      rw [hs]
      exact evalSubJob_id tm s

theorem subRef_evaluate (tm : String → Except Err String) (t : Task) : subJobRef (evaluateTask tm t).1 = subJobRef t := by
  rw [evaluateTask_eq]
  have hs := subRef_start tm t
  rcases hst : evalTaskStart tm t with ⟨t1, e1⟩
  rw [hst] at hs
  have hs : t1.subJob = t.subJob := hs
  have h1 : ∀ u : Task, u.subJob = t1.subJob → subJobRef u = subJobRef t := fun u hu => by
    unfold subJobRef; rw [hu, hs]
  cases e1 with
  | some e => exact h1 _ rfl
  | none =>
    dsimp only
    rcases evalTasks tm t.pre with ⟨pre, e2⟩
    cases e2 with
    | some e => exact h1 _ rfl
    | none =>
      dsimp only
      rcases evalTasks tm t.post with ⟨post, e3⟩
      cases e3 with
      | some e => exact h1 _ rfl
      | none =>
        dsimp only
        rcases evalPar tm t.parallel with ⟨par, e4⟩
        cases e4 with
        | some e => exact h1 _ rfl
        | none => exact (subRef_end _ _).trans (h1 _ rfl)

theorem sound_clone {t : Task} (h : Sound C n t) : Sound C n t.clone := by
  induction n generalizing t with
  | zero => exact h.elim
  | succ n ih =>
    obtain ⟨h1, h2, h3, h4, h5⟩ := h
    have hf := clone_frame t
    refine ⟨by rw [clone_queue]; exact h1, by rw [hf.retry]; exact h2, fun p hp => ?_, fun e he => ?_, fun s hs => ?_⟩
    · rw [hf.par] at hp
      cases hpp : t.parallel with
      | none => rw [hpp] at hp; simp at hp
      | some p0 =>
        rw [hpp] at hp; simp at hp; rw [← hp]
        refine ⟨by simpa using (h3 p0 hpp).1, fun x hx => ?_⟩
        obtain ⟨c0, k1, rfl⟩ := List.mem_map.1 hx
        exact ih ((h3 p0 hpp).2 c0 k1)
    · rw [hf.each] at he
      cases hee : t.each with
      | none => rw [hee] at he; simp at he
      | some e0 =>
        rw [hee] at he; simp at he; rw [← he]
        exact ⟨(h4 e0 hee).1, ih (h4 e0 hee).2⟩
    · obtain ⟨s0, k1, k2⟩ := hf.sub.2 s hs
      rw [k2]
      refine ⟨by simpa using (h5 s0 k1).1, fun x hx => ?_⟩
      obtain ⟨c0, k3, rfl⟩ := List.mem_map.1 hx
      have hv := ((h5 s0 k1).2 c0 k3).1
      exact ⟨⟨by rw [(clone_frame c0).parentID]; exact hv.parent, by rw [(clone_frame c0).nodeID]; exact hv.node,
        by rw [subRef_clone]; exact hv.sub⟩, ih ((h5 s0 k1).2 c0 k3).2⟩

theorem sound_mapCmds (g : String → String) {t : Task} (h : Sound C n t) : Sound C n (t.mapCmds g) := by
  induction n generalizing t with
  | zero => exact h.elim
  | succ n ih =>
    obtain ⟨h1, h2, h3, h4, h5⟩ := h
    rw [Task.mapCmds_eq]
    refine ⟨h1, h2, fun p hp => ?_, h4, h5⟩
    cases htp : t.parallel with
    | none => simp [htp, mapCmdsP] at hp
    | some p0 =>
      simp [htp, mapCmdsP_some] at hp
      subst hp
      refine ⟨by simpa using (h3 p0 htp).1, fun x hx => ?_⟩
      obtain ⟨c0, k1, rfl⟩ := List.mem_map.1 hx
      exact ih ((h3 p0 htp).2 c0 k1)

/-! ## Shape -/

/-- Number of branches, if parallel. -/
def width (t : Task) : Option Nat := t.parallel.map (·.tasks.length)
/-- Concurrency, if an each task. -/
def conc (t : Task) : Option Nat := t.each.map (·.concurrency)

/-- What never changes of a task. -/
structure Same (a b : Task) : Prop where
  id : b.id = a.id
  job : b.jobID = a.jobID
  parent : b.parentID = a.parentID
  width : width b = width a
  conc : conc b = conc a

theorem Same.refl (a : Task) : Same a a := ⟨rfl, rfl, rfl, rfl, rfl⟩
theorem Same.trans {a b c : Task} (h1 : Same a b) (h2 : Same b c) : Same a c :=
  ⟨h2.id.trans h1.id, h2.job.trans h1.job, h2.parent.trans h1.parent, h2.width.trans h1.width, h2.conc.trans h1.conc⟩
theorem Same.symm {a b : Task} (h1 : Same a b) : Same b a :=
  ⟨h1.id.symm, h1.job.symm, h1.parent.symm, h1.width.symm, h1.conc.symm⟩

theorem width_evaluate (tm : String → Except Err String) (t : Task) : width (evaluateTask tm t).1 = width t := by
  obtain ⟨_, hp⟩ := evaluateTask_frame tm t
  unfold width
  rcases hp with hp | ⟨p, h1, h2⟩
  · rw [hp]
  · rw [h1, h2]
    exact congrArg some (evalTasks_length tm p.tasks)

theorem conc_evaluate (tm : String → Except Err String) (t : Task) : conc (evaluateTask tm t).1 = conc t := by
  unfold conc; rw [(evaluateTask_frame tm t).1.each]

theorem width_clone (t : Task) : width t.clone = width t := by
  unfold width; rw [(clone_frame t).par]; cases t.parallel <;> simp

theorem conc_clone (t : Task) : conc t.clone = conc t := by
  unfold conc; rw [(clone_frame t).each]; cases t.each <;> simp

end Tork.Flow
