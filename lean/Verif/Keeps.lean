import Verif.CoordExec
import Verif.Trace
/-!
# Relations kept by every single operation of a program

`Keeps R p`: every transaction `p` can perform relates the database before and after by `R`, whatever the
database is at that moment.
-/

namespace Tork
open Prog

def Keeps (R : DS → DS → Prop) {α : Type} : Prog α → Prop
  | .ret _ => True
  | .db op k => (∀ ds, R ds (op.run ds).2.1) ∧ (∀ ds, ∀ x ∈ op.partials ds, R ds x.1) ∧ ∀ r, Keeps R (k r)
  | .pub _ k => ∀ r, Keeps R (k r)
  | .nondet k => ∀ n, Keeps R (k n)
  | .uuid k => ∀ n, Keeps R (k n)
  | .panic _ => True

section
variable {R : DS → DS → Prop} {α β γ : Type}

theorem keeps_bind {p : Prog α} {k : α → Prog β} (h : Keeps R p) (hk : ∀ a, Keeps R (k a)) : Keeps R (p.bind k) := by
  induction p with
  | ret a => exact hk a
  | db op f ih => exact ⟨h.1, h.2.1, fun r => ih r (h.2.2 r)⟩
  | pub m f ih => exact fun r => ih r (h r)
  | nondet f ih => exact fun r => ih r (h r)
  | uuid f ih => exact fun r => ih r (h r)
  | panic e => trivial

theorem keeps_tx (hr : ∀ ds, R ds ds) {f : DS → Except Err (γ × DS)} {k : Except Err γ → Prog α}
    (hf : ∀ ds g ds', f ds = .ok (g, ds') → R ds ds') (hk : ∀ r, Keeps R (k r)) : Keeps R ((tx f).bind k) := by
  refine ⟨fun ds => ?_, by simp [DbOp.of], hk⟩
  simp only [DbOp.of]
  cases h : f ds with
  | error e => exact hr ds
  | ok x => obtain ⟨g, ds'⟩ := x; exact hf ds g ds' h

theorem keeps_read (hr : ∀ ds, R ds ds) {f : DS → Except Err (γ × DS)} {k : Except Err γ → Prog α}
    (hf : ∀ ds g ds', f ds = .ok (g, ds') → ds' = ds) (hk : ∀ r, Keeps R (k r)) : Keeps R ((tx f).bind k) :=
  keeps_tx hr (fun ds g ds' h => by rw [hf ds g ds' h]; exact hr ds) hk

theorem keeps_pub {m : Msg} {k : Except Err Unit → Prog α} (hk : ∀ r, Keeps R (k r)) : Keeps R ((publish m).bind k) := hk
theorem keeps_now {k : Nat → Prog α} (hk : ∀ r, Keeps R (k r)) : Keeps R (Prog.now.bind k) := hk
theorem keeps_seed {k : Nat → Prog α} (hk : ∀ r, Keeps R (k r)) : Keeps R (Prog.seed.bind k) := hk
theorem keeps_uuid {k : Nat → Prog α} (hk : ∀ r, Keeps R (k r)) : Keeps R (Prog.newUUID.bind k) := hk
theorem keeps_ret (a : α) : Keeps R (.ret a) := trivial

/-- Fault-free execution. -/
theorem Keeps.exec (hr : ∀ ds, R ds ds) (ht : ∀ a b c, R a b → R b c → R a c) {p : Prog α} (h : Keeps R p) (s : Sys) :
    R s.ds (p.exec s).2.ds := by
  induction p generalizing s with
  | ret a => exact hr _
  | db op k ih =>
    exact ht _ _ _ (h.1 s.ds) (ih (op.run s.ds).1 (h.2.2 _) { s with ds := (op.run s.ds).2.1, out := s.out ++ (op.run s.ds).2.2 })
  | pub m k ih => exact ih (.ok ()) (h _) { s with out := s.out ++ [m] }
  | nondet k ih => exact ih (s.o s.tick) (h _) { s with tick := s.tick + 1 }
  | uuid k ih => exact ih s.next (h _) { s with next := s.next + 1 }
  | panic e => exact hr _

/-- Every run, with faults and interference. -/
theorem Keeps.run (hr : ∀ ds, R ds ds) {p q : Prog α} {l : List Ev} (h : Keeps R p) (hl : Run p l q) :
    ∀ e ∈ l, R e.before e.after := by
  induction hl with
  | nil => simp
  | cons hp _ ih =>
    intro e he
    cases hp with
    | dbOk op k =>
      rcases List.mem_cons.1 he with rfl | he
      · exact h.1 _
      · exact ih (h.2.2 _) e he
    | dbFail op k _ _ er =>
      rcases List.mem_cons.1 he with rfl | he
      · exact hr _
      · exact ih (h.2.2 _) e he
    | dbLost op k _ _ er =>
      rcases List.mem_cons.1 he with rfl | he
      · exact h.1 _
      · exact ih (h.2.2 _) e he
    | dbPartial op k _ _ er x hx =>
      rcases List.mem_cons.1 he with rfl | he
      · exact h.2.1 _ x hx
      · exact ih (h.2.2 _) e he
    | pubOk m k =>
      rcases List.mem_cons.1 he with rfl | he
      · exact hr _
      · exact ih (h _) e he
    | pubFail m k _ _ er =>
      rcases List.mem_cons.1 he with rfl | he
      · exact hr _
      · exact ih (h _) e he
    | pubLost m k _ _ er =>
      rcases List.mem_cons.1 he with rfl | he
      · exact hr _
      · exact ih (h _) e he
    | nondet k _ _ x =>
      rcases List.mem_cons.1 he with rfl | he
      · exact hr _
      · exact ih (h _) e he
    | uuid k =>
      rcases List.mem_cons.1 he with rfl | he
      · exact hr _
      · exact ih (h _) e he

end

/-! ## The programs used when something failed -/

/-- What a relation must satisfy to be kept by the failure path. -/
structure FailRel (R : DS → DS → Prop) : Prop where
  refl : ∀ ds, R ds ds
  cancel : ∀ ds (t : Task), ds.task? t.id = some t → R ds (ds.setTask t.id { t with state := .cancelled })
  fail : ∀ ds (t : Task) at' err, ds.task? t.id = some t → t.state.isActive = true →
    R ds (ds.setTask t.id { t with state := .failed, failedAt := at', error := err })
  resave : ∀ ds (t : Task), ds.task? t.id = some t → R ds (ds.setTask t.id t)
  create : ∀ ds (t : Task), ds.task? t.id = none → R ds { ds with tasks := ds.tasks ++ [taskRow t] }
  failJob : ∀ ds (j : Job) at', ds.job? j.id = some j → R ds (ds.setJob j.id { j with state := .failed, failedAt := at' })
  resaveJob : ∀ ds (j : Job), ds.job? j.id = some j → R ds (ds.setJob j.id j)

theorem updT {R : DS → DS → Prop} {id : Nat} {m : Task → Task}
    (h : ∀ ds (t : Task), ds.task? t.id = some t → R ds (ds.setTask t.id (m t))) (ds : DS) (g : Unit) (ds' : DS)
    (he : updateTask' id m ds = .ok (g, ds')) : R ds ds' := by
  obtain ⟨r, hr, rfl⟩ := updateTask'_ok he
  have hid := (task?_mem hr).2
  subst hid
  exact h ds r hr

theorem updJ {R : DS → DS → Prop} {id : Nat} {m : Job → Job}
    (h : ∀ ds (t : Job), ds.job? t.id = some t → R ds (ds.setJob t.id (m t))) (ds : DS) (g : Unit) (ds' : DS)
    (he : updateJob' id m ds = .ok (g, ds')) : R ds ds' := by
  obtain ⟨r, hr, rfl⟩ := updateJob'_ok he
  have hid := (job?_mem hr).2
  subst hid
  exact h ds r hr

theorem cancelLoop_keeps {R : DS → DS → Prop} (hR : FailRel R) (ts : List Task) : Keeps R (cancelLoop ts) := by
  induction ts with
  | nil => rw [cancelLoop]; trivial
  | cons t ts ih =>
    rw [cancelLoop]
    simp only [bind_eq, pure_eq]
    refine keeps_tx hR.refl (updT hR.cancel) fun r => ?_
    cases r with
    | error e => exact keeps_ret _
    | ok _ =>
      simp only
      split
      · refine keeps_read hR.refl (read_getJob _) fun r => ?_
        cases r with
        | error e => exact keeps_ret _
        | ok sj => refine keeps_pub fun r => ?_; cases r <;> first | exact keeps_ret _ | exact ih
      · split
        · refine keeps_read hR.refl (read_getNode _) fun r => ?_
          cases r with
          | error e => exact keeps_ret _
          | ok sj => refine keeps_pub fun r => ?_; cases r <;> first | exact keeps_ret _ | exact ih
        · exact ih

theorem cancelActive_keeps {R : DS → DS → Prop} (hR : FailRel R) (id : Nat) : Keeps R (cancelActiveTasks id) := by
  unfold cancelActiveTasks
  simp only [bind_eq, pure_eq]
  refine keeps_read hR.refl (read_getActive _) fun r => ?_
  cases r with
  | error e => exact keeps_ret _
  | ok ts => exact cancelLoop_keeps hR ts

theorem failJob_keeps {R : DS → DS → Prop} (hR : FailRel R) (j : Job) : Keeps R (failJob j) := by
  unfold failJob
  simp only [bind_eq, pure_eq]
  refine keeps_tx hR.refl (updJ fun ds t ht => ?_) fun r => ?_
  · unfold failJobRow
    split
    · exact hR.failJob ds t _ ht
    · exact hR.resaveJob ds t ht
  · cases r with
    | error e => exact keeps_ret _
    | ok _ =>
      simp only
      split
      · refine keeps_read hR.refl (read_getTask _) fun r => ?_
        cases r with
        | error e => exact keeps_ret _
        | ok sj => refine keeps_pub fun r => ?_; cases r <;> exact keeps_ret _
      · refine keeps_bind (cancelActive_keeps hR _) fun r => ?_
        cases r with
        | some e => exact keeps_ret _
        | none =>
          refine keeps_read hR.refl (read_getJob _) fun r => ?_
          cases r with
          | error e => exact keeps_ret _
          | ok sj =>
            simp only
            split
            · refine keeps_pub fun r => ?_; cases r <;> exact keeps_ret _
            · exact keeps_ret _

theorem errorHandler_keeps {R : DS → DS → Prop} (hR : FailRel R) (C : Cfg) (t : Task) : Keeps R (errorHandler C t) := by
  unfold errorHandler
  simp only [bind_eq, pure_eq]
  refine keeps_read hR.refl (read_getJob _) fun r => ?_
  cases r with
  | error e => exact keeps_ret _
  | ok j =>
    refine keeps_now fun now => ?_
    refine keeps_tx hR.refl (updT fun ds t ht => ?_) fun r => ?_
    · unfold failTaskRow
      split
      · rename_i h; exact hR.fail ds t _ _ ht h
      · exact hR.resave ds t ht
    · cases r with
      | error e => exact keeps_ret _
      | ok _ =>
        simp only
        split
        · refine keeps_now fun now => keeps_uuid fun id => keeps_seed fun sd => ?_
          split
          · exact keeps_ret _
          · refine keeps_tx hR.refl (fun ds g ds' h => ?_) fun r => ?_
            · obtain ⟨h1, _, rfl⟩ := createTask_ok h
              exact hR.create ds _ h1
            · cases r with
              | error e => exact keeps_ret _
              | ok _ => exact keeps_pub fun _ => keeps_ret _
        · exact failJob_keeps hR _

end Tork
