import Verif.Handlers
import Verif.Api
import Verif.DSLemmas
import Verif.FreshLemmas
/-!
# Executing programs without faults and interruptions
-/

namespace Tork
open Prog

/-- The system with another database. -/
def Sys.withDs (s : Sys) (ds : DS) : Sys := { s with ds := ds }
/-- The system after a publish. -/
def Sys.send (s : Sys) (ms : List Msg) : Sys := { s with out := s.out ++ ms }
/-- The system after one clock reading. -/
def Sys.ticked (s : Sys) : Sys := { s with tick := s.tick + 1 }
/-- The system after one UUID was drawn. -/
def Sys.drawn (s : Sys) : Sys := { s with next := s.next + 1 }
/-- The next clock reading / random seed. -/
def Sys.clock (s : Sys) : Nat := s.o s.tick

@[simp] theorem Sys.withDs_ds (s : Sys) (ds : DS) : (s.withDs ds).ds = ds := rfl
@[simp] theorem Sys.withDs_out (s : Sys) (ds : DS) : (s.withDs ds).out = s.out := rfl
@[simp] theorem Sys.withDs_next (s : Sys) (ds : DS) : (s.withDs ds).next = s.next := rfl
@[simp] theorem Sys.withDs_clock (s : Sys) (ds : DS) : (s.withDs ds).clock = s.clock := rfl
@[simp] theorem Sys.withDs_o (s : Sys) (ds : DS) : (s.withDs ds).o = s.o := rfl
@[simp] theorem Sys.send_ds (s : Sys) (ms : List Msg) : (s.send ms).ds = s.ds := rfl
@[simp] theorem Sys.send_out (s : Sys) (ms : List Msg) : (s.send ms).out = s.out ++ ms := rfl
@[simp] theorem Sys.send_next (s : Sys) (ms : List Msg) : (s.send ms).next = s.next := rfl
@[simp] theorem Sys.send_clock (s : Sys) (ms : List Msg) : (s.send ms).clock = s.clock := rfl
@[simp] theorem Sys.send_o (s : Sys) (ms : List Msg) : (s.send ms).o = s.o := rfl
@[simp] theorem Sys.ticked_ds (s : Sys) : s.ticked.ds = s.ds := rfl
@[simp] theorem Sys.ticked_out (s : Sys) : s.ticked.out = s.out := rfl
@[simp] theorem Sys.ticked_next (s : Sys) : s.ticked.next = s.next := rfl
@[simp] theorem Sys.ticked_o (s : Sys) : s.ticked.o = s.o := rfl
@[simp] theorem Sys.drawn_ds (s : Sys) : s.drawn.ds = s.ds := rfl
@[simp] theorem Sys.drawn_out (s : Sys) : s.drawn.out = s.out := rfl
@[simp] theorem Sys.drawn_next (s : Sys) : s.drawn.next = s.next + 1 := rfl
@[simp] theorem Sys.drawn_clock (s : Sys) : s.drawn.clock = s.clock := rfl
@[simp] theorem Sys.drawn_o (s : Sys) : s.drawn.o = s.o := rfl

section
variable {α γ : Type} {s : Sys}

theorem exec_ret (a : α) : (Prog.ret a).exec s = (some a, s) := rfl

/-- Sequencing, when the first part ends. -/
theorem exec_bind_of {β : Type} {p : Prog β} {k : β → Prog α} {b : β} {s' : Sys} (h : p.exec s = (some b, s')) :
    (p.bind k).exec s = (k b).exec s' := by
  rw [exec_bind, h]

theorem exec_tx {f : DS → Except Err (γ × DS)} {k : Except Err γ → Prog α} {g : γ} {ds' : DS}
    (h : f s.ds = .ok (g, ds')) : ((tx f).bind k).exec s = (k (.ok g)).exec (s.withDs ds') := by
  simp only [tx, db_bind, ret_bind, exec, DbOp.of, h, List.append_nil]; rfl

theorem exec_tx_err {f : DS → Except Err (γ × DS)} {k : Except Err γ → Prog α} {e : Err}
    (h : f s.ds = .error e) : ((tx f).bind k).exec s = (k (.error e)).exec s := by
  simp only [tx, db_bind, ret_bind, exec, DbOp.of, h, List.append_nil]

theorem exec_txOp {op : DbOp γ} {k : Except Err γ → Prog α} :
    ((txOp op).bind k).exec s = (k (op.run s.ds).1).exec ((s.withDs (op.run s.ds).2.1).send (op.run s.ds).2.2) := rfl

theorem exec_read {f : DS → Except Err (γ × DS)} {k : Except Err γ → Prog α} {g : γ}
    (h : f s.ds = .ok (g, s.ds)) : ((tx f).bind k).exec s = (k (.ok g)).exec s := exec_tx h

theorem exec_pub {m : Msg} {k : Except Err Unit → Prog α} :
    ((publish m).bind k).exec s = (k (.ok ())).exec (s.send [m]) := rfl

theorem exec_now {k : Nat → Prog α} : ((now).bind k).exec s = (k s.clock).exec s.ticked := rfl
theorem exec_seed {k : Nat → Prog α} : ((seed).bind k).exec s = (k s.clock).exec s.ticked := rfl
theorem exec_uuid {k : Nat → Prog α} : ((newUUID).bind k).exec s = (k s.next).exec s.drawn := rfl

end

/-! ### Datastore operations on known rows -/

theorem getJob_of {ds : DS} {id : Nat} {j : Job} (h : ds.job? id = some j) : getJob id ds = .ok (j, ds) := by
  unfold getJob; rw [h]
theorem getJob_none {ds : DS} {id : Nat} (h : ds.job? id = none) : getJob id ds = .error "job not found" := by
  unfold getJob; rw [h]
theorem getTask_of {ds : DS} {id : Nat} {t : Task} (h : ds.task? id = some t) : getTask id ds = .ok (t, ds) := by
  unfold getTask; rw [h]
theorem getNode_of {ds : DS} {id : Nat} {n : Node} (h : ds.node? id = some n) : getNode id ds = .ok (n, ds) := by
  unfold getNode; rw [h]
theorem updateTask'_of {ds : DS} {id : Nat} {t : Task} {m : Task → Task} (h : ds.task? id = some t) :
    updateTask' id m ds = .ok ((), ds.setTask id (m t)) := by
  unfold updateTask' updateTask; rw [h]
theorem updateTask_of {γ : Type} {ds : DS} {id : Nat} {t u : Task} {g : γ} {m : Task → Except Err (γ × Task)}
    (h : ds.task? id = some t) (hm : m t = .ok (g, u)) :
    updateTask id m ds = .ok (g, ds.setTask id u) := by
  unfold updateTask; simp only [h, hm]
theorem updateTask_refused {γ : Type} {ds : DS} {id : Nat} {t : Task} {e : Err} {m : Task → Except Err (γ × Task)}
    (h : ds.task? id = some t) (hm : m t = .error e) : updateTask id m ds = .error e := by
  unfold updateTask; simp only [h, hm]
theorem updateJob'_of {ds : DS} {id : Nat} {t : Job} {m : Job → Job} (h : ds.job? id = some t) :
    updateJob' id m ds = .ok ((), ds.setJob id (m t)) := by
  unfold updateJob' updateJob; rw [h]
theorem updateJob_of {γ : Type} {ds : DS} {id : Nat} {t u : Job} {g : γ} {m : Job → Except Err (γ × Job)}
    (h : ds.job? id = some t) (hm : m t = .ok (g, u)) : updateJob id m ds = .ok (g, ds.setJob id u) := by
  unfold updateJob; simp only [h, hm]
theorem updateJob_refused {γ : Type} {ds : DS} {id : Nat} {t : Job} {e : Err} {m : Job → Except Err (γ × Job)}
    (h : ds.job? id = some t) (hm : m t = .error e) : updateJob id m ds = .error e := by
  unfold updateJob; simp only [h, hm]
theorem createTask_of {ds : DS} {t : Task} (h1 : ds.task? t.id = none) (h2 : (ds.job? t.jobID).isSome)
    (h3 : t.createdAt.isSome) : createTask t ds = .ok ((), { ds with tasks := ds.tasks ++ [taskRow t] }) := by
  unfold createTask
  rw [if_neg (by simp [h1]), if_neg (by intro h; rw [Option.isNone_iff_eq_none] at h; rw [h] at h2; cases h2),
    if_neg (by intro h; rw [Option.isNone_iff_eq_none] at h; rw [h] at h3; cases h3)]
theorem createJob_of {ds : DS} {j : Job} (h0 : j.id ≠ 0) (h1 : ds.job? j.id = none) :
    createJob j ds = .ok ((), { ds with jobs := ds.jobs ++ [jobRow ds.guest j] }) := by
  unfold createJob
  rw [if_neg h0, if_neg (by simp [h1])]

end Tork
