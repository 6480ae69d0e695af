import Verif.SafeEnv
import Verif.EvalLemmas
/-!
# The fault-free system and a logic of obligations

`CalmStep` is the interleaving semantics of `World.lean` without faults: no operation fails by itself, no goroutine
dies, no message is lost (messages may be delivered in any order, also more than once). `Good p T o s` says that, whatever
the other goroutines do, program `p` never panics, keeps the database well-formed and discharges the *obligations* `o`:
for every job in `o` it either publishes a message that carries the job on, or leaves the job in a final state.
-/

namespace Tork.Calm
open Prog

/-! ## What is assumed of the jobs -/

/-- A queue served by workers: neither one of the coordinator's (`/repo/broker/queues.go:19-40`) nor a node's private queue
(`queues.go:14,42-44`). -/
def WorkQueue (q : String) : Prop := isCoordinatorQueue q = false ∧ ¬ ['x', '-'] <+: q.toList

/-- Evaluating an expression always gives a value. -/
def Total (C : Cfg) : Prop := ∀ x c sd, ∃ v, C.O x c sd = .ok v

/-- A queue name given literally: no template, and a work queue (or absent). -/
def LiteralQueue (q : String) : Prop := ¬ ['{', '{'] <:+: q.toList ∧ (q = "" ∨ WorkQueue q)

/-- No retries, or evaluation never fails (a failing evaluation of a retry loses the job, see `C52_retry_defect`). -/
def RetryFine (C : Cfg) (r : Option TaskRetry) : Prop := Total C ∨ ∀ x, r = some x → x.limit = 0

/-- A single task: no parallel, each or sub-job section, no parent. -/
structure Regular (C : Cfg) (t : Task) : Prop where
  par : t.parallel = none
  each : t.each = none
  sub : t.subJob = none
  parent : t.parentID = 0
  queue : LiteralQueue t.queue
  retry : RetryFine C t.retry

structure RegularJob (C : Cfg) (j : Job) : Prop where
  nonempty : j.tasks ≠ []
  tasks : ∀ t ∈ j.tasks, Regular C t
  parent : j.parentID = 0
  queue : ∀ d, j.defaults = some d → LiteralQueue d.queue
  retry : ∀ d, j.defaults = some d → RetryFine C d.retry

/-- A job that still has to reach a final state. -/
def Live (ds : DS) (n : Nat) : Prop :=
  ∃ j, ds.job? n = some j ∧ (j.state = .pending ∨ j.state = .scheduled ∨ j.state = .running)

/-! ## The invariant -/

def HasTask (ds : DS) (n : Nat) : Prop := ∃ t, ds.task? n = some t
def HasJob (ds : DS) (n : Nat) : Prop := ∃ j, ds.job? n = some j
def Started (ds : DS) (n : Nat) : Prop := ∃ j, ds.job? n = some j ∧ j.state ≠ .pending

/-- What stays true once it is true. -/
structure Le (a b : DS) : Prop where
  tasks : ∀ n, HasTask a n → HasTask b n
  jobs : ∀ n, HasJob a n → HasJob b n
  started : ∀ n, Started a n → Started b n

theorem Le.refl (a : DS) : Le a a := ⟨fun _ h => h, fun _ h => h, fun _ h => h⟩
theorem Le.trans {a b c : DS} (h1 : Le a b) (h2 : Le b c) : Le a c :=
  ⟨fun n h => h2.tasks n (h1.tasks n h), fun n h => h2.jobs n (h1.jobs n h), fun n h => h2.started n (h1.started n h)⟩

/-- The states of jobs that occur. -/
def JobState.proper : JobState → Prop
  | .pending | .scheduled | .running | .completed | .failed | .cancelled => True
  | _ => False

structure JobGood (C : Cfg) (j : Job) : Prop where
  reg : RegularJob C j
  pos : j.state ≠ .pending → 1 ≤ j.position
  state : JobState.proper j.state

structure Inv (C : Cfg) (ds : DS) : Prop where
  jobs : ∀ n j, ds.job? n = some j → JobGood C j
  tasks : ∀ n t, ds.task? n = some t → Regular C t
  keysT : (ds.tasks.map (·.id)).Nodup

structure MsgTask (C : Cfg) (s : DS) (t : Task) : Prop where
  reg : Regular C t
  row : HasTask s t.id
  started : Started s t.jobID

structure MsgJob (C : Cfg) (s : DS) (j : Job) : Prop where
  reg : RegularJob C j
  row : HasJob s j.id
  state : j.state = .pending ∨ j.state = .cancelled ∨ j.state = .restart
  started : j.state ≠ .pending → Started s j.id
  restart : j.state = .restart → 1 ≤ j.position ∧ j.position ≤ j.tasks.length

def MsgOK (C : Cfg) (s : DS) : Msg → Prop
  | .task _ t => MsgTask C s t
  | .progress t => MsgTask C s t
  | .job j => MsgJob C s j
  | _ => True

theorem MsgTask.mono {C : Cfg} {s s' : DS} {t : Task} (h : MsgTask C s t) (hl : Le s s') : MsgTask C s' t :=
  ⟨h.reg, hl.tasks _ h.row, hl.started _ h.started⟩

theorem MsgOK.mono {C : Cfg} {s s' : DS} {m : Msg} (h : MsgOK C s m) (hl : Le s s') : MsgOK C s' m := by
  cases m with
  | task q t => exact MsgTask.mono h hl
  | progress t => exact MsgTask.mono h hl
  | job j =>
    have h : MsgJob C s j := h
    exact (⟨h.reg, hl.jobs _ h.row, h.state, fun hs => hl.started _ (h.started hs), h.restart⟩ : MsgJob C s' j)
  | _ => trivial

/-- A message to the coordinator or to the workers that will carry on its job. -/
def Carries (q : String) : Prop :=
  q = QUEUE_PENDING ∨ q = QUEUE_COMPLETED ∨ q = QUEUE_ERROR ∨ WorkQueue q

open Classical in
/-- The job carried on by a message, if any. -/
noncomputable def toks : Msg → List Nat
  | .task q t => if Carries q then [t.jobID] else []
  | .job j => if j.state = .pending then [j.id] else []
  | _ => []

open Classical in
theorem toks_task {q : String} (h : Carries q) (t : Task) : toks (.task q t) = [t.jobID] := by
  show (if Carries q then [t.jobID] else []) = _
  rw [if_pos h]

/-- Nothing has this id. -/
structure Unused (ds : DS) (n : Nat) : Prop where
  job : ds.job? n = none
  task : ds.task? n = none

/-! ## The logic -/

/-- The effect of one transaction by a goroutine owning the ids `T`, with obligations `o` before and `o'` after. -/
structure OpOK (C : Cfg) (T T' o o' : List Nat) (ds ds' : DS) : Prop where
  le : Le ds ds'
  inv : Inv C ds'
  ownT : ∀ n, ds.task? n = none → ds'.task? n ≠ none → n ∈ T
  ownJ : ∀ n, ds.job? n = none → ds'.job? n ≠ none → n ∈ T
  unused : ∀ n ∈ T', Unused ds' n
  cover : ∀ n, Live ds' n → (n ∈ o ∨ ¬ Live ds n) → n ∈ o'

def Good (C : Cfg) {α : Type} : Prog α → List Nat → List Nat → DS → (List Nat → List Nat → DS → α → Prop) → Prop
  | .ret a, T, o, s, post => ∀ s', Le s s' → post T o s' a
  | .db op k, T, o, s, post => ∀ ds, Le s ds → Inv C ds → (∀ n ∈ T, Unused ds n) →
      ∃ T' o', T'.Sublist T ∧ OpOK C T T' o o' ds (op.run ds).2.1 ∧ (op.run ds).2.2 = [] ∧
        Good C (k (op.run ds).1) T' o' (op.run ds).2.1 post
  | .pub m k, T, o, s, post => MsgOK C s m ∧ ∃ o', (∀ n ∈ o, n ∈ o' ∨ n ∈ toks m) ∧ Good C (k (.ok ())) T o' s post
  | .nondet k, T, o, s, post => ∀ n, Good C (k n) T o s post
  | .uuid k, T, o, s, post => ∀ n, n ≠ 0 → n ∉ T → Good C (k n) (n :: T) o s post
  | .panic _, _, _, _, _ => False

theorem Good.le {C : Cfg} {α : Type} {p : Prog α} {T o : List Nat} {s s' : DS}
    {post : List Nat → List Nat → DS → α → Prop} (h : Good C p T o s post) (hl : Le s s') : Good C p T o s' post := by
  induction p generalizing T o s s' with
  | ret a => exact fun s'' h' => h s'' (hl.trans h')
  | db op k ih => exact fun ds hd => h ds (hl.trans hd)
  | pub m k ih =>
    obtain ⟨h1, o', h2, h3⟩ := h
    exact ⟨h1.mono hl, o', h2, ih _ h3 hl⟩
  | nondet k ih => exact fun n => ih _ (h n) hl
  | uuid k ih => exact fun n hn hT => ih _ (h n hn hT) hl
  | panic s => exact h

theorem Good.mono {C : Cfg} {α : Type} {p : Prog α} {T o : List Nat} {s : DS}
    {post post' : List Nat → List Nat → DS → α → Prop} (h : Good C p T o s post)
    (hp : ∀ T o s' a, Le s s' → post T o s' a → post' T o s' a) : Good C p T o s post' := by
  induction p generalizing T o s with
  | ret a => exact fun s' h' => hp _ _ _ _ h' (h s' h')
  | db op k ih =>
    intro ds hd hi hu
    obtain ⟨T', o', h1, h2, h3, h4⟩ := h ds hd hi hu
    exact ⟨T', o', h1, h2, h3, ih _ h4 fun T o s' a hl => hp T o s' a ((hd.trans h2.le).trans hl)⟩
  | pub m k ih =>
    obtain ⟨h1, o', h2, h3⟩ := h
    exact ⟨h1, o', h2, ih _ h3 hp⟩
  | nondet k ih => exact fun n => ih _ (h n) hp
  | uuid k ih => exact fun n hn hT => ih _ (h n hn hT) hp
  | panic s => exact h

theorem Good.bind {C : Cfg} {α β : Type} {p : Prog α} {f : α → Prog β} {T o : List Nat} {s : DS}
    {post : List Nat → List Nat → DS → β → Prop}
    (h : Good C p T o s fun T' o' s' a => Good C (f a) T' o' s' post) : Good C (p.bind f) T o s post := by
  induction p generalizing T o s with
  | ret a => exact h s (Le.refl s)
  | db op k ih =>
    intro ds hd hi hu
    obtain ⟨T', o', h1, h2, h3, h4⟩ := h ds hd hi hu
    exact ⟨T', o', h1, h2, h3, ih _ h4⟩
  | pub m k ih =>
    obtain ⟨h1, o', h2, h3⟩ := h
    exact ⟨h1, o', h2, ih _ h3⟩
  | nondet k ih => exact fun n => ih _ (h n)
  | uuid k ih => exact fun n hn hT => ih _ (h n hn hT)
  | panic s => exact h

/-- Sequencing with a postcondition. -/
theorem Good.seq {C : Cfg} {α β : Type} {p : Prog α} {f : α → Prog β} {T o : List Nat} {s : DS}
    {mid : List Nat → List Nat → DS → α → Prop} {post : List Nat → List Nat → DS → β → Prop}
    (h : Good C p T o s mid) (hf : ∀ T' o' s' a, Le s s' → mid T' o' s' a → Good C (f a) T' o' s' post) :
    Good C (p.bind f) T o s post :=
  Good.bind (h.mono fun T o s' a hl hm => hf T o s' a hl hm)

/-! ## Operations -/

variable {C : Cfg} {α γ : Type} {T o : List Nat} {s : DS} {post : List Nat → List Nat → DS → α → Prop}

theorem good_ret {a : α} (h : ∀ s', Le s s' → post T o s' a) : Good C (.ret a) T o s post := h

theorem good_now {k : Nat → Prog α} (h : ∀ n, Good C (k n) T o s post) : Good C (Prog.now.bind k) T o s post := h
theorem good_seed {k : Nat → Prog α} (h : ∀ n, Good C (k n) T o s post) : Good C (Prog.seed.bind k) T o s post := h
theorem good_uuid {k : Nat → Prog α} (h : ∀ n, n ≠ 0 → n ∉ T → Good C (k n) (n :: T) o s post) :
    Good C (Prog.newUUID.bind k) T o s post := h

theorem good_pub {m : Msg} {k : Except Err Unit → Prog α} (hm : MsgOK C s m) (o' : List Nat)
    (ho : ∀ n ∈ o, n ∈ o' ∨ n ∈ toks m) (h : Good C (k (.ok ())) T o' s post) :
    Good C ((publish m).bind k) T o s post := ⟨hm, o', ho, h⟩

theorem good_pubT {q : String} {t : Task} {k : Except Err Unit → Prog α} (hm : MsgTask C s t) (o' : List Nat)
    (ho : ∀ n ∈ o, n ∈ o' ∨ n ∈ toks (.task q t)) (h : Good C (k (.ok ())) T o' s post) :
    Good C ((publish (.task q t)).bind k) T o s post := ⟨hm, o', ho, h⟩

theorem good_pubP {t : Task} {k : Except Err Unit → Prog α} (hm : MsgTask C s t)
    (h : Good C (k (.ok ())) T o s post) :
    Good C ((publish (.progress t)).bind k) T o s post := ⟨hm, o, fun _ h => .inl h, h⟩

theorem run_of_ok {f : DS → Except Err (γ × DS)} {ds ds' : DS} {g : γ} (h : f ds = .ok (g, ds')) :
    (DbOp.of f).run ds = (.ok g, ds', []) := by
  unfold DbOp.of; dsimp only; rw [h]

theorem run_of_err {f : DS → Except Err (γ × DS)} {ds : DS} {e : Err} (h : f ds = .error e) :
    (DbOp.of f).run ds = (.error e, ds, []) := by
  unfold DbOp.of; dsimp only; rw [h]

theorem OpOK.refl {T o : List Nat} {ds : DS} (hi : Inv C ds) (hu : ∀ n ∈ T, Unused ds n) : OpOK C T T o o ds ds :=
  ⟨Le.refl ds, hi, fun _ h h' => absurd h h', fun _ h h' => absurd h h', hu, fun _ h1 h2 => h2.elim (fun h => h) (absurd h1)⟩

/-- A transaction that reads only. -/
theorem good_read {f : DS → Except Err (γ × DS)} {k : Except Err γ → Prog α}
    (hf : ∀ ds g ds', f ds = .ok (g, ds') → ds' = ds)
    (h : ∀ ds, Le s ds → Inv C ds → Good C (k ((f ds).map Prod.fst)) T o ds post) : Good C ((tx f).bind k) T o s post := by
  intro ds hd hi hu
  refine ⟨T, o, List.Sublist.refl _, ?_, ?_, ?_⟩
  · show OpOK C T T o o ds ((DbOp.of f).run ds).2.1
    have : ((DbOp.of f).run ds).2.1 = ds := by
      unfold DbOp.of; dsimp only; split
      · exact hf _ _ _ ‹_›
      · rfl
    rw [this]; exact OpOK.refl hi hu
  · show ((DbOp.of f).run ds).2.2 = []
    unfold DbOp.of; dsimp only; split <;> rfl
  · show Good C (k ((DbOp.of f).run ds).1) T o ((DbOp.of f).run ds).2.1 post
    have := h ds hd hi
    unfold DbOp.of; dsimp only
    cases hx : f ds with
    | error e => rw [hx] at this; exact this
    | ok x =>
      obtain ⟨g, ds'⟩ := x
      rw [hx] at this
      rw [show ds' = ds from hf _ _ _ hx]; exact this

theorem good_getJob {id : Nat} {k : Except Err Job → Prog α} (hj : HasJob s id)
    (h : ∀ ds j, Le s ds → Inv C ds → ds.job? id = some j → Good C (k (.ok j)) T o ds post) :
    Good C ((tx (getJob id)).bind k) T o s post := by
  refine good_read (fun ds g ds' hg => ?_) fun ds hd hi => ?_
  · unfold getJob at hg; split at hg
    · exact absurd hg (by simp)
    · cases hg; rfl
  · obtain ⟨j, hj⟩ := hd.jobs _ hj
    unfold getJob; rw [hj]
    exact h ds j hd hi hj

/-- Reading a job that may not exist. -/
theorem good_getJob? {id : Nat} {k : Except Err Job → Prog α}
    (he : ∀ ds e, Le s ds → Good C (k (.error e)) T o ds post)
    (h : ∀ ds j, Le s ds → Inv C ds → ds.job? id = some j → Good C (k (.ok j)) T o ds post) :
    Good C ((tx (getJob id)).bind k) T o s post := by
  refine good_read (fun ds g ds' hg => ?_) fun ds hd hi => ?_
  · unfold getJob at hg; split at hg
    · exact absurd hg (by simp)
    · cases hg; rfl
  · unfold getJob
    cases hj : ds.job? id with
    | none => exact he ds _ hd
    | some j => exact h ds j hd hi hj

theorem good_getNode {id : Nat} {k : Except Err Node → Prog α}
    (h : ∀ ds r, Le s ds → Good C (k r) T o ds post) : Good C ((tx (getNode id)).bind k) T o s post := by
  refine good_read (fun ds g ds' hg => ?_) fun ds hd hi => ?_
  · unfold getNode at hg; split at hg
    · exact absurd hg (by simp)
    · cases hg; rfl
  · exact h ds _ hd

theorem good_getActive {id : Nat} {k : Except Err (List Task) → Prog α}
    (h : ∀ ds ts, Le s ds → (∀ t ∈ ts, Regular C t ∧ HasTask ds t.id ∧ t.jobID = id) → Good C (k (.ok ts)) T o ds post) :
    Good C ((tx (getActiveTasks id)).bind k) T o s post := by
  refine good_read (fun ds g ds' hg => ?_) fun ds hd hi => ?_
  · unfold getActiveTasks at hg; cases hg; rfl
  · refine h ds _ hd fun t ht => ?_
    have ht := List.mem_filter.1 ht
    have hm := task?_of_mem hi.keysT ht.1
    refine ⟨hi.tasks _ _ hm, ⟨t, hm⟩, ?_⟩
    have := ht.2
    simp only [Bool.and_eq_true, decide_eq_true_eq] at this
    exact this.1

theorem live_setTask {ds : DS} {id n : Nat} {u : Task} : Live (ds.setTask id u) n ↔ Live ds n := Iff.rfl

/-- A transaction that changes one task row. -/
theorem opok_setTask {ds : DS} {id : Nat} {r u : Task} (hi : Inv C ds) (hu : ∀ n ∈ T, Unused ds n)
    (hr : ds.task? id = some r) (hreg : Regular C (persistTask r u)) : OpOK C T T o o ds (ds.setTask id u) where
  le := by
    refine ⟨fun n ⟨t, ht⟩ => ?_, fun _ h => h, fun _ h => h⟩
    unfold HasTask
    rw [task?_setTask]
    split
    · exact ⟨persistTask t u, by rw [ht]; rfl⟩
    · exact ⟨t, ht⟩
  inv := by
    refine ⟨hi.jobs, fun n t ht => ?_, by rw [keys_setTask]; exact hi.keysT⟩
    rw [task?_setTask] at ht
    split at ht
    · rename_i hn; rw [hn, hr] at ht; cases ht; exact hreg
    · exact hi.tasks n t ht
  ownT n h h' := by
    rw [task?_setTask] at h'
    split at h'
    · rw [h] at h'; exact absurd rfl h'
    · exact absurd h h'
  ownJ _ h h' := absurd h h'
  unused n hn := by
    refine ⟨(hu n hn).job, ?_⟩
    rw [task?_setTask]
    split
    · rw [(hu n hn).task]; rfl
    · exact (hu n hn).task
  cover _ h1 h2 := h2.elim (fun h => h) (absurd h1)

/-- Changing a task row by a closure that keeps it regular. -/
theorem good_updTask {id : Nat} {m : Task → Task} {k : Except Err Unit → Prog α} (hid : HasTask s id)
    (hm : ∀ r, Regular C r → Regular C (persistTask r (m r)))
    (h : ∀ s', Le s s' → Good C (k (.ok ())) T o s' post) : Good C ((tx (updateTask' id m)).bind k) T o s post := by
  intro ds hd hi hu
  obtain ⟨r, hr⟩ := hd.tasks _ hid
  have hrun : (DbOp.of (updateTask' id m)).run ds = (.ok (), ds.setTask id (m r), []) := by
    apply run_of_ok
    unfold updateTask' updateTask; rw [hr]
  have ho := opok_setTask (o := o) hi hu hr (hm r (hi.tasks _ _ hr))
  refine ⟨T, o, List.Sublist.refl _, ?_, ?_, ?_⟩
  · show OpOK C T T o o ds ((DbOp.of (updateTask' id m)).run ds).2.1
    rw [hrun]; exact ho
  · show ((DbOp.of (updateTask' id m)).run ds).2.2 = []
    rw [hrun]
  · show Good C (k ((DbOp.of (updateTask' id m)).run ds).1) T o ((DbOp.of (updateTask' id m)).run ds).2.1 post
    rw [hrun]; exact h _ (hd.trans ho.le)

/-- The effect of changing one job row. -/
theorem opok_setJob {ds : DS} {id : Nat} {r u : Job} {o' : List Nat} (hi : Inv C ds) (hu : ∀ n ∈ T, Unused ds n)
    (hr : ds.job? id = some r) (hpos : u.state ≠ .pending → 1 ≤ u.position) (hst : JobState.proper u.state)
    (hpend : r.state ≠ .pending → u.state ≠ .pending)
    (hoth : ∀ n ∈ o, n ≠ id → n ∈ o')
    (hcov : (u.state = .pending ∨ u.state = .scheduled ∨ u.state = .running) →
      (id ∈ o ∨ ¬ (r.state = .pending ∨ r.state = .scheduled ∨ r.state = .running)) → id ∈ o') :
    OpOK C T T o o' ds (ds.setJob id u) where
  le := by
    refine ⟨fun _ h => h, fun n ⟨t, ht⟩ => ?_, fun n ⟨t, ht, hs⟩ => ?_⟩
    · unfold HasJob
      rw [job?_setJob]
      split
      · exact ⟨persistJob t u, by rw [ht]; rfl⟩
      · exact ⟨t, ht⟩
    · unfold Started
      rw [job?_setJob]
      split
      · rename_i hn
        rw [hn, hr] at ht; cases ht
        exact ⟨persistJob r u, by rw [hn, hr]; rfl, hpend hs⟩
      · exact ⟨t, ht, hs⟩
  inv := by
    refine ⟨fun n j hj => ?_, hi.tasks, hi.keysT⟩
    rw [job?_setJob] at hj
    split at hj
    · rename_i hn; rw [hn, hr] at hj; cases hj
      have hg := (hi.jobs _ _ hr).reg
      exact ⟨⟨hg.nonempty, hg.tasks, hg.parent, hg.queue, hg.retry⟩, hpos, hst⟩
    · exact hi.jobs n j hj
  ownT _ h h' := absurd h h'
  ownJ n h h' := by
    rw [job?_setJob] at h'
    split at h'
    · rw [h] at h'; exact absurd rfl h'
    · exact absurd h h'
  unused n hn := by
    refine ⟨?_, (hu n hn).task⟩
    rw [job?_setJob]
    split
    · rw [(hu n hn).job]; rfl
    · exact (hu n hn).job
  cover n h1 h2 := by
    obtain ⟨j, hj, hs⟩ := h1
    rw [job?_setJob] at hj
    split at hj
    · rename_i hn; subst hn; rw [hr] at hj; cases hj
      refine hcov hs (h2.imp (fun h => h) fun h hl => h ⟨r, hr, hl⟩)
    · rename_i hn
      exact hoth n (h2.elim (fun h => h) fun h => absurd ⟨j, hj, hs⟩ h) hn

/-- Changing a job row by a closure that may refuse. -/
theorem good_updJob {id : Nat} {m : Job → Except Err (γ × Job)} {k : Except Err γ → Prog α} (hid : HasJob s id)
    (h : ∀ ds r, Le s ds → Inv C ds → ds.job? id = some r →
      (∀ e, m r = .error e → ∃ o', (∀ n ∈ o, n ∈ o' ∨ ¬ Live ds n) ∧ Good C (k (.error e)) T o' ds post) ∧
      (∀ g u, m r = .ok (g, u) → ∃ o', (u.state ≠ .pending → 1 ≤ u.position) ∧ JobState.proper u.state ∧
        (r.state ≠ .pending → u.state ≠ .pending) ∧ (∀ n ∈ o, n ≠ id → n ∈ o') ∧
        ((u.state = .pending ∨ u.state = .scheduled ∨ u.state = .running) →
          (id ∈ o ∨ ¬ (r.state = .pending ∨ r.state = .scheduled ∨ r.state = .running)) → id ∈ o') ∧
        ∀ s', Le ds s' → (u.state ≠ .pending → Started s' id) → Good C (k (.ok g)) T o' s' post)) :
    Good C ((tx (updateJob id m)).bind k) T o s post := by
  intro ds hd hi hu
  obtain ⟨r, hr⟩ := hd.jobs _ hid
  obtain ⟨h1, h2⟩ := h ds r hd hi hr
  cases hm : m r with
  | error e =>
    have hrun : (DbOp.of (updateJob id m)).run ds = (.error e, ds, []) := by
      apply run_of_err
      unfold updateJob; rw [hr]; dsimp only; rw [hm]
    obtain ⟨o', h3, h4⟩ := h1 e hm
    refine ⟨T, o', List.Sublist.refl _, ?_, ?_, ?_⟩
    · show OpOK C T T o o' ds ((DbOp.of (updateJob id m)).run ds).2.1
      rw [hrun]
      exact ⟨Le.refl ds, hi, fun _ h h' => absurd h h', fun _ h h' => absurd h h', hu, fun n hl hn =>
        hn.elim (fun hn => (h3 n hn).elim (fun h => h) fun hx => absurd hl hx) (absurd hl)⟩
    · show ((DbOp.of (updateJob id m)).run ds).2.2 = []
      rw [hrun]
    · show Good C (k ((DbOp.of (updateJob id m)).run ds).1) T o' ((DbOp.of (updateJob id m)).run ds).2.1 post
      rw [hrun]; exact h4
  | ok x =>
    obtain ⟨g, u⟩ := x
    have hrun : (DbOp.of (updateJob id m)).run ds = (.ok g, ds.setJob id u, []) := by
      apply run_of_ok
      unfold updateJob; rw [hr]; dsimp only; rw [hm]
    obtain ⟨o', h3, h4, h5, h6, h7, h8⟩ := h2 g u hm
    have ho := opok_setJob (T := T) hi hu hr h3 h4 h5 h6 h7
    refine ⟨T, o', List.Sublist.refl _, ?_, ?_, ?_⟩
    · show OpOK C T T o o' ds ((DbOp.of (updateJob id m)).run ds).2.1
      rw [hrun]; exact ho
    · show ((DbOp.of (updateJob id m)).run ds).2.2 = []
      rw [hrun]
    · show Good C (k ((DbOp.of (updateJob id m)).run ds).1) T o' ((DbOp.of (updateJob id m)).run ds).2.1 post
      rw [hrun]
      exact h8 _ ho.le fun hs => ⟨persistJob r u, by rw [job?_setJob, if_pos rfl, hr]; rfl, hs⟩

/-- Inserting a task with an id of our own. -/
theorem good_createTask {t : Task} {k : Except Err Unit → Prog α} (hid : t.id ∈ T) (hj : HasJob s t.jobID)
    (hc : t.createdAt.isSome) (hreg : Regular C t)
    (h : ∀ s', Le s s' → HasTask s' t.id → Good C (k (.ok ())) (T.filter (· ≠ t.id)) o s' post) :
    Good C ((tx (createTask t)).bind k) T o s post := by
  intro ds hd hi hu
  have hun := hu _ hid
  obtain ⟨j, hj⟩ := hd.jobs _ hj
  have hrun : (DbOp.of (createTask t)).run ds = (.ok (), { ds with tasks := ds.tasks ++ [taskRow t] }, []) := by
    apply run_of_ok
    unfold createTask
    rw [if_neg (by rw [hun.task]; simp), if_neg (by rw [hj]; simp), if_neg (by
      cases hh : t.createdAt with
      | none => rw [hh] at hc; exact absurd hc (by simp)
      | some _ => simp)]
  have hle : Le ds { ds with tasks := ds.tasks ++ [taskRow t] } := by
    refine ⟨fun n ⟨x, hx⟩ => ⟨x, ?_⟩, fun _ h => h, fun _ h => h⟩
    rw [task?_append, hx]; rfl
  have ho : OpOK C T (T.filter (· ≠ t.id)) o o ds { ds with tasks := ds.tasks ++ [taskRow t] } := by
    refine ⟨hle, ⟨hi.jobs, fun n x hx => ?_, ?_⟩, fun n h1 h2 => ?_, fun _ h h' => absurd h h', fun n hn => ?_,
      fun _ h1 h2 => h2.elim (fun h => h) (absurd h1)⟩
    · rw [task?_append] at hx
      cases hh : ds.task? n with
      | some y => rw [hh] at hx; cases hx; exact hi.tasks n _ hh
      | none =>
        rw [hh] at hx
        simp only [Option.none_or] at hx
        split at hx
        · cases hx; exact ⟨hreg.par, hreg.each, hreg.sub, hreg.parent, hreg.queue, hreg.retry⟩
        · exact absurd hx (by simp)
    · rw [List.map_append, List.nodup_append]
      refine ⟨hi.keysT, by simp, fun a ha b hb => ?_⟩
      obtain ⟨x, hx, rfl⟩ := List.mem_map.1 ha
      have hb : b = t.id := by simpa [taskRow] using hb
      intro he
      have := task?_of_mem hi.keysT hx
      rw [he, hb, hun.task] at this
      exact absurd this (by simp)
    · rw [task?_append, h1] at h2
      simp only [Option.none_or] at h2
      split at h2
      · rename_i he; exact he ▸ hid
      · exact absurd rfl h2
    · have hne : n ≠ t.id := by simpa using (List.mem_filter.1 hn).2
      refine ⟨(hu n ((List.mem_filter.1 hn).1)).job, ?_⟩
      rw [task?_append, (hu n ((List.mem_filter.1 hn).1)).task]
      show (if t.id = n then _ else _) = none
      rw [if_neg (fun h => hne h.symm)]
  refine ⟨T.filter (· ≠ t.id), o, List.filter_sublist, ?_, ?_, ?_⟩
  · show OpOK C T _ o o ds ((DbOp.of (createTask t)).run ds).2.1
    rw [hrun]; exact ho
  · show ((DbOp.of (createTask t)).run ds).2.2 = []
    rw [hrun]
  · show Good C (k ((DbOp.of (createTask t)).run ds).1) _ o ((DbOp.of (createTask t)).run ds).2.1 post
    rw [hrun]
    refine h _ (hd.trans hle) ⟨taskRow t, ?_⟩
    rw [task?_append, hun.task]
    show (if t.id = t.id then _ else _) = _
    rw [if_pos rfl]

/-- Inserting a job with an id of our own. -/
theorem good_createJob {j : Job} {k : Except Err Unit → Prog α} (hid : j.id ∈ T) (h0 : j.id ≠ 0)
    (hreg : RegularJob C j) (hp : j.state = .pending)
    (h : ∀ s', Le s s' → HasJob s' j.id → Good C (k (.ok ())) (T.filter (· ≠ j.id)) (j.id :: o) s' post) :
    Good C ((tx (createJob j)).bind k) T o s post := by
  intro ds hd hi hu
  have hun := hu _ hid
  have hrun : (DbOp.of (createJob j)).run ds = (.ok (), { ds with jobs := ds.jobs ++ [jobRow ds.guest j] }, []) := by
    apply run_of_ok
    unfold createJob
    rw [if_neg h0, if_neg (by rw [hun.job]; simp)]
  have hle : Le ds { ds with jobs := ds.jobs ++ [jobRow ds.guest j] } := by
    refine ⟨fun _ h => h, fun n ⟨x, hx⟩ => ⟨x, ?_⟩, fun n ⟨x, hx, hs⟩ => ⟨x, ?_, hs⟩⟩ <;>
    · rw [job?_append, hx]; rfl
  have ho : OpOK C T (T.filter (· ≠ j.id)) o (j.id :: o) ds { ds with jobs := ds.jobs ++ [jobRow ds.guest j] } := by
    refine ⟨hle, ⟨fun n x hx => ?_, hi.tasks, hi.keysT⟩, fun _ h h' => absurd h h', fun n h1 h2 => ?_, fun n hn => ?_,
      fun n h1 h2 => ?_⟩
    · rw [job?_append] at hx
      cases hh : ds.job? n with
      | some y => rw [hh] at hx; cases hx; exact hi.jobs n _ hh
      | none =>
        rw [hh] at hx
        simp only [Option.none_or] at hx
        split at hx
        · cases hx
          refine ⟨⟨hreg.nonempty, hreg.tasks, hreg.parent, hreg.queue, hreg.retry⟩, fun h => absurd hp h, ?_⟩
          show JobState.proper j.state
          rw [hp]; trivial
        · exact absurd hx (by simp)
    · rw [job?_append, h1] at h2
      simp only [Option.none_or] at h2
      split at h2
      · rename_i he; exact he ▸ hid
      · exact absurd rfl h2
    · have hne : n ≠ j.id := by simpa using (List.mem_filter.1 hn).2
      refine ⟨?_, (hu n ((List.mem_filter.1 hn).1)).task⟩
      rw [job?_append, (hu n ((List.mem_filter.1 hn).1)).job]
      show (if j.id = n then _ else _) = none
      rw [if_neg (fun h => hne h.symm)]
    · rcases h2 with h2 | h2
      · exact List.mem_cons_of_mem _ h2
      · obtain ⟨x, hx, hs⟩ := h1
        rw [job?_append] at hx
        cases hh : ds.job? n with
        | some y => rw [hh] at hx; cases hx; exact absurd ⟨_, hh, hs⟩ h2
        | none =>
          rw [hh] at hx
          simp only [Option.none_or] at hx
          split at hx
          · rename_i he; exact List.mem_cons.2 (.inl he.symm)
          · exact absurd hx (by simp)
  refine ⟨T.filter (· ≠ j.id), j.id :: o, List.filter_sublist, ?_, ?_, ?_⟩
  · show OpOK C T _ o _ ds ((DbOp.of (createJob j)).run ds).2.1
    rw [hrun]; exact ho
  · show ((DbOp.of (createJob j)).run ds).2.2 = []
    rw [hrun]
  · show Good C (k ((DbOp.of (createJob j)).run ds).1) _ _ ((DbOp.of (createJob j)).run ds).2.1 post
    rw [hrun]
    refine h _ (hd.trans hle) ⟨jobRow ds.guest j, ?_⟩
    rw [job?_append, hun.job]
    show (if j.id = j.id then _ else _) = _
    rw [if_pos rfl]

end Tork.Calm
