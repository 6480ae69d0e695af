import Verif.OriginSpec
import Verif.Trim
import Verif.SafeEnv
import Verif.Calm
import Verif.CloneLemmas
/-!
# Where tasks come from: the logic

`Good p G T`: whatever the other goroutines do, program `p` keeps every stored and published task `Made`. The ghost state `G`
remembers what every task id and job id stands for.
-/

namespace Tork.Origin
open Prog

/-! ## The same work -/

theorem SameWork.refl (a : Task) : SameWork a a := ⟨rfl, rfl⟩
theorem SameWork.symm {a b : Task} (h : SameWork a b) : SameWork b a := ⟨h.1.symm, h.2.symm⟩
theorem SameWork.trans {a b c : Task} (h1 : SameWork a b) (h2 : SameWork b c) : SameWork a c := ⟨h1.1.trans h2.1, h1.2.trans h2.2⟩

mutual
theorem forget_idem : (t : Task) → t.forgetRedelivery.forgetRedelivery = t.forgetRedelivery
  | t@{ pre := pre, post := post, sidecars := sidecars, parallel := par, each := ea, subJob := sj, .. } => by
    simp only [Task.forgetRedelivery, forget_idemL pre, forget_idemL post, forget_idemL sidecars, forget_idemP par, forget_idemE ea, forget_idemS sj]
theorem forget_idemL : (ts : List Task) → forgetRedeliveryL (forgetRedeliveryL ts) = forgetRedeliveryL ts
  | [] => by simp only [forgetRedeliveryL]
  | t :: ts => by simp only [forgetRedeliveryL, forget_idem t, forget_idemL ts]
theorem forget_idemP : (p : Option (ParallelTask Task)) → forgetRedeliveryP (forgetRedeliveryP p) = forgetRedeliveryP p
  | none => by simp only [forgetRedeliveryP]
  | some { tasks := ts, .. } => by simp only [forgetRedeliveryP, forget_idemL ts]
theorem forget_idemE : (p : Option (EachTask Task)) → forgetRedeliveryE (forgetRedeliveryE p) = forgetRedeliveryE p
  | none => by simp only [forgetRedeliveryE]
  | some { task := t, .. } => by simp only [forgetRedeliveryE, forget_idem t]
theorem forget_idemS : (p : Option (SubJobTask Task)) → forgetRedeliveryS (forgetRedeliveryS p) = forgetRedeliveryS p
  | none => by simp only [forgetRedeliveryS]
  | some { tasks := ts, .. } => by simp only [forgetRedeliveryS, forget_idemL ts]
end

mutual
theorem mapCmds_comp (f g : String → String) : (t : Task) → (t.mapCmds g).mapCmds f = t.mapCmds (f ∘ g)
  | t@{ pre := pre, post := post, parallel := par, .. } => by
    simp only [Task.mapCmds, mapCmdsL_comp f g pre, mapCmdsL_comp f g post, mapCmdsP_comp f g par, List.map_map]
theorem mapCmdsL_comp (f g : String → String) : (ts : List Task) → mapCmdsL f (mapCmdsL g ts) = mapCmdsL (f ∘ g) ts
  | [] => by simp only [mapCmdsL]
  | t :: ts => by simp only [mapCmdsL, mapCmds_comp f g t, mapCmdsL_comp f g ts]
theorem mapCmdsP_comp (f g : String → String) : (p : Option (ParallelTask Task)) → mapCmdsP f (mapCmdsP g p) = mapCmdsP (f ∘ g) p
  | none => by simp only [mapCmdsP]
  | some { tasks := ts, .. } => by simp only [mapCmdsP, mapCmdsL_comp f g ts]
end

mutual
theorem mapCmds_forget (f : String → String) : (t : Task) → t.forgetRedelivery.mapCmds f = (t.mapCmds f).forgetRedelivery
  | t@{ pre := pre, post := post, parallel := par, .. } => by
    simp only [Task.mapCmds, Task.forgetRedelivery, mapCmdsL_forget f pre, mapCmdsL_forget f post, mapCmdsP_forget f par]
theorem mapCmdsL_forget (f : String → String) : (ts : List Task) → mapCmdsL f (forgetRedeliveryL ts) = forgetRedeliveryL (mapCmdsL f ts)
  | [] => by simp only [mapCmdsL, forgetRedeliveryL]
  | t :: ts => by simp only [mapCmdsL, forgetRedeliveryL, mapCmds_forget f t, mapCmdsL_forget f ts]
theorem mapCmdsP_forget (f : String → String) : (p : Option (ParallelTask Task)) → mapCmdsP f (forgetRedeliveryP p) = forgetRedeliveryP (mapCmdsP f p)
  | none => by simp only [mapCmdsP, forgetRedeliveryP]
  | some { tasks := ts, .. } => by simp only [mapCmdsP, forgetRedeliveryP, mapCmdsL_forget f ts]
end

theorem work_clone (t : Task) : work t.clone = work t := by
  rw [clone_forget]
  cases t with
  | mk id jobID parentID position name description state createdAt scheduledAt startedAt completedAt failedAt cmd entrypoint run image registry env files queue redelivered error pre post sidecars mounts networks nodeID retry limits timeout result var cond parallel each subJob gpus tags workdir priority progress probe =>
  simp only [Task.forgetRedelivery, work, forget_idemL]
  congr 1
  · cases parallel with
    | none => rfl
    | some p => simp [forgetRedeliveryP, branches, forget_idemL]
  · cases each with
    | none => rfl
    | some p => simp [forgetRedeliveryE, loop, mapCmds_forget, forget_idem]
  · cases subJob with
    | none => rfl
    | some p => simp [forgetRedeliveryS, subDef, forget_idemL]

theorem same_clone (t : Task) : SameWork t.clone t := by
  refine ⟨work_clone t, ?_⟩
  unfold attempts
  rw [(clone_frame t).retry]

/-- Scheduling a loop overwrites command lines in its body. -/
theorem same_afterChild (tm : String → Except Err String) {t : Task} {e : EachTask Task} (he : t.each = some e) :
    SameWork { t with each := some (afterChild tm e) } t := by
  refine ⟨?_, rfl⟩
  simp only [work, he, Option.map_some, afterChild, loop, mapCmds_comp]
  rfl

theorem work_persist {r u : Task} (h1 : u.position = r.position) (h2 : u.parallel.map branches = r.parallel.map branches)
    (h3 : u.each.map loop = r.each.map loop) (h4 : u.subJob.map subDef = r.subJob.map subDef) : work (persistTask r u) = work r := by
  simp only [work, persistTask, h1, h2, h3, h4]

/-! ## Ghost state -/

structure Ghost where
  /-- what a job id stands for -/
  defs : Nat → Option JobDef := fun _ => none
  /-- what a task id stands for -/
  works : Nat → Option (Task × Nat) := fun _ => none
  /-- the values the variables of a job had -/
  vals : Nat → String → String → Prop := fun _ _ _ => False
  /-- the contexts a job had at its positions -/
  snaps : Nat → Nat → JobContext → Prop := fun _ _ _ => False
  /-- the jobs that are stored -/
  stored : Nat → Prop := fun _ => False

structure Ghost.le (G G' : Ghost) : Prop where
  defs : ∀ n d, G.defs n = some d → G'.defs n = some d
  works : ∀ n k, G.works n = some k → G'.works n = some k
  vals : ∀ n k v, G.vals n k v → G'.vals n k v
  snaps : ∀ n k v, G.snaps n k v → G'.snaps n k v
  stored : ∀ n, G.stored n → G'.stored n

theorem Ghost.le.refl (G : Ghost) : G.le G := ⟨fun _ _ h => h, fun _ _ h => h, fun _ _ _ h => h, fun _ _ _ h => h, fun _ h => h⟩
theorem Ghost.le.trans {a b c : Ghost} (h1 : a.le b) (h2 : b.le c) : a.le c :=
  ⟨fun n d h => h2.defs n d (h1.defs n d h), fun n d h => h2.works n d (h1.works n d h),
   fun n k v h => h2.vals n k v (h1.vals n k v h), fun n k v h => h2.snaps n k v (h1.snaps n k v h),
   fun n h => h2.stored n (h1.stored n h)⟩

def Ghost.J (G : Ghost) (n k : Nat) (d : Task) : Prop :=
  G.stored n ∧ ∃ f, G.defs n = some f ∧ 1 ≤ k ∧ f.tasks[k - 1]? = some d

/-- A context of what job `n` stands for. -/
def CtxOK (G : Ghost) (n : Nat) (c : JobContext) : Prop :=
  ∃ f, G.defs n = some f ∧ c.inputs = f.inputs ∧ c.secrets = f.secrets ∧ c.job = f.info ∧ ∀ k v, (k, v) ∈ c.tasks → G.vals n k v

def Ghost.Cx (G : Ghost) (n k : Nat) (c : JobContext) : Prop := G.stored n ∧ CtxOK G n c ∧ ∃ p, G.snaps n p c ∧ max 1 p = k

def key (t : Task) : Task × Nat := (work t, attempts t)

theorem key_eq {a b : Task} : key a = key b ↔ SameWork a b := Prod.mk.injEq _ _ _ _ ▸ Iff.rfl

/-- The record `t` is what its id stands for. -/
def TaskOK (G : Ghost) (t : Task) : Prop := G.works t.id = some (key t)

/-- Like `TaskOK`, up to middleware. -/
def SeenOK (E : Env) (G : Ghost) (t : Task) : Prop := ∃ u, TaskOK G u ∧ Reported E u t

def JobOK (G : Ghost) (j : Job) : Prop :=
  G.defs j.id = some (jobDef j) ∧ (∀ k v, (k, v) ∈ j.context.tasks → G.vals j.id k v) ∧ G.snaps j.id j.position j.context

/-- Queues whose messages carry the task as middleware left it. -/
def Loose (q : String) : Prop := q = QUEUE_STARTED ∨ isExclusiveQueue q = true

/-- A task that is handed to a worker. -/
def Regular (t : Task) : Prop := t.parallel = none ∧ t.each = none ∧ t.subJob = none ∧ trimSpace t.cond ≠ "false"

/-- `v` is what a worker or the sub-job of `t` ended with. -/
def Earned (E : Env) (G : Ghost) (t : Task) (v : String) : Prop :=
  (t.subJob = none ∧ trimSpace t.cond ≠ "false" ∧ Worked E t v) ∨
  ∃ n d p c sd, G.stored n ∧ G.defs n = some d ∧ d.parent = t.id ∧ G.snaps n p c ∧ d.tasks.length < p ∧
    evaluateTemplate E.C.O ⟨c, none⟩ sd d.output = .ok v

def Ended (E : Env) (G : Ghost) (t : Task) (v : String) : Prop := Leaf t → Earned E G t v

/-- `v` is the result that the first attempt of a top-level task is made with (of no meaning if a task has the id 0). -/
def Unrun (G : Ghost) (t : Task) (v : String) : Prop :=
  t.parentID = 0 → attempts t = 0 → G.works 0 = none → ∃ d, G.J t.jobID t.position d ∧ v = d.result

/-- What is known of the task of a message: its result once it is completed, or skipped, or before it is scheduled. -/
def TaskMsg (E : Env) (G : Ghost) (q : String) (t : Task) : Prop :=
  TaskOK G t ∧ (t.state = .completed → Ended E G t t.result) ∧ (isTaskQueue q = true ∨ q = QUEUE_REDELIVERIES → Regular t) ∧
  (t.state = .skipped → trimSpace t.cond = "false" ∧ Unrun G t t.result) ∧ (q = QUEUE_PENDING ∨ isTaskQueue q = true ∨ q = QUEUE_REDELIVERIES → Unrun G t t.result)

/-- What is known of the result in the row of a task. -/
def RowEnd (E : Env) (G : Ghost) (t : Task) : Prop :=
  (t.state = .completed → ∃ v, t.result = sanitizeString v ∧ Ended E G t v) ∧
  (t.state = .skipped → trimSpace t.cond = "false") ∧
  ∃ v, t.result = sanitizeString v ∧ (Ended E G t v ∨ Unrun G t v)

def MsgOK (E : Env) (G : Ghost) : Msg → Prop
  | .task q t => SeenOK E G t ∧ (¬ Loose q → TaskMsg E G q t)
  | .progress t => SeenOK E G t
  | .job j => JobOK G j ∧ (j.state = .pending → j.position = 0) ∧ j.state ≠ .completed
  | _ => True

/-- The result of the job is its output, evaluated in a context it had when its last task was behind it. -/
def ResultOK (E : Env) (G : Ghost) (j : Job) : Prop :=
  ∃ p c sd, G.snaps j.id p c ∧ j.tasks.length < p ∧ evaluateTemplate E.C.O ⟨c, none⟩ sd j.output = .ok j.result

/-- The change of a job row from `r` to `u` keeps what it stands for. -/
def KeepsJob (E : Env) (G : Ghost) (r u : Job) : Prop :=
  jobDef (persistJob r u) = jobDef r ∧ (u.state = .completed → r.state = .completed ∧ u.result = r.result ∨ ResultOK E G (persistJob r u))

/-- The change of a task row from `r` to `u` keeps what it stands for. -/
def KeepsTask (E : Env) (G : Ghost) (r u : Task) : Prop :=
  key (persistTask r u) = key r ∧ (u.state = .completed → r.state = .completed ∧ u.result = r.result ∨ Ended E G r u.result) ∧
  (u.state = .skipped → r.state = .skipped ∨ trimSpace r.cond = "false") ∧ (u.result = r.result ∨ Ended E G r u.result ∨ Unrun G r u.result)

abbrev Ghost.Made (E : Env) (G : Ghost) (t : Task) : Prop := Origin.Made E G.J G.Cx (TaskOK G) t

structure Inv (E : Env) (G : Ghost) (ds : DS) : Prop where
  tasks : ∀ n t, ds.task? n = some t → G.works n = some (key t)
  jobs : ∀ n j, ds.job? n = some j → JobOK G j
  works : ∀ n k, G.works n = some k → (∃ t, ds.task? n = some t) ∧ ∃ t, key t = k ∧ G.Made E t
  defs : ∀ n d, G.defs n = some d → JobFrom E G.J G.Cx (TaskOK G) d
  stored : ∀ n, G.stored n ↔ ∃ j, ds.job? n = some j
  snaps : ∀ n k c, G.snaps n k c → G.defs n ≠ none
  nodes : ∀ n ∈ ds.nodes, isExclusiveQueue n.queue = true
  keysT : (ds.tasks.map (·.id)).Nodup
  results : ∀ n j, ds.job? n = some j → j.state = .completed → ResultOK E G j
  ends : ∀ n t, ds.task? n = some t → RowEnd E G t

/-! ### Monotonicity -/

theorem Ghost.J.mono {G G' : Ghost} {n k : Nat} {d : Task} (h : G.J n k d) (hl : G.le G') : G'.J n k d := by
  obtain ⟨h1, f, h2, h3⟩ := h
  exact ⟨hl.stored _ h1, f, hl.defs _ _ h2, h3⟩

theorem CtxOK.mono {G G' : Ghost} {n : Nat} {c : JobContext} (h : CtxOK G n c) (hl : G.le G') : CtxOK G' n c := by
  obtain ⟨f, h1, h2, h3, h4, h5⟩ := h
  exact ⟨f, hl.defs _ _ h1, h2, h3, h4, fun k v h => hl.vals _ _ _ (h5 k v h)⟩

theorem Ghost.Cx.mono {G G' : Ghost} {n k : Nat} {c : JobContext} (h : G.Cx n k c) (hl : G.le G') : G'.Cx n k c := by
  obtain ⟨h1, h2, p, h3, h4⟩ := h
  exact ⟨hl.stored _ h1, h2.mono hl, p, hl.snaps _ _ _ h3, h4⟩

theorem Made.imp {E : Env} {J J' : Nat → Nat → Task → Prop} {Cx Cx' : Nat → Nat → JobContext → Prop} {R R' : Task → Prop} {t : Task} (h : Origin.Made E J Cx R t)
    (hJ : ∀ n k d, J n k d → J' n k d) (hC : ∀ n k c, Cx n k c → Cx' n k c) (hR : ∀ t, R t → R' t) : Origin.Made E J' Cx' R' t := by
  induction h with
  | top n k id now sd c hd hc h => exact .top n k id now sd c (hJ _ _ _ hd) (hC _ _ _ hc) h
  | branch id now sd c _ hr hq hd hc he h ih => exact .branch id now sd c ih (hR _ hr) hq hd (hc.imp fun _ => hC _ _ _) he h
  | item id now sd ix item c _ hr hq hc he h ih => exact .item id now sd ix item c ih (hR _ hr) hq (hc.imp fun _ => hC _ _ _) he h
  | retry id now sd c _ hr hv hn hc he h ih => exact .retry id now sd c ih (hR _ hr) hv hn (hc.imp fun _ => hC _ _ _) he h

theorem Made.same {E : Env} {J : Nat → Nat → Task → Prop} {Cx : Nat → Nat → JobContext → Prop} {R : Task → Prop} {t u : Task} (h : Origin.Made E J Cx R t)
    (hs : SameWork t u) : Origin.Made E J Cx R u := by
  cases h with
  | top n k id now sd c hd hc h => exact .top n k id now sd c hd hc (h.trans hs)
  | branch id now sd c hp hR hq hd hc he h => exact .branch id now sd c hp hR hq hd hc he (h.trans hs)
  | item id now sd ix item c hp hR hq hc he h => exact .item id now sd ix item c hp hR hq hc he (h.trans hs)
  | retry id now sd c hu hR hv hn hc he h => exact .retry id now sd c hu hR hv hn hc he (h.trans hs)

theorem Ghost.Made.mono {E : Env} {G G' : Ghost} {t : Task} (h : G.Made E t) (hl : G.le G') : G'.Made E t :=
  Made.imp h (fun _ _ _ h => h.mono hl) (fun _ _ _ h => h.mono hl) fun _ h => hl.works _ _ h

theorem JobFrom.mono {E : Env} {G G' : Ghost} {d : JobDef} (h : JobFrom E G.J G.Cx (TaskOK G) d) (hl : G.le G') : JobFrom E G'.J G'.Cx (TaskOK G') d := by
  rcases h with h | h | ⟨t, s, h1, h0, h2⟩
  · exact .inl h
  · exact .inr (.inl h)
  · exact .inr (.inr ⟨t, s, Ghost.Made.mono h1 hl, hl.works _ _ h0, h2⟩)

theorem TaskOK.mono {G G' : Ghost} {t : Task} (h : TaskOK G t) (hl : G.le G') : TaskOK G' t := hl.works _ _ h
theorem SeenOK.mono {E : Env} {G G' : Ghost} {t : Task} (h : SeenOK E G t) (hl : G.le G') : SeenOK E G' t := by
  obtain ⟨u, h1, h2⟩ := h
  exact ⟨u, h1.mono hl, h2⟩
theorem JobOK.mono {G G' : Ghost} {j : Job} (h : JobOK G j) (hl : G.le G') : JobOK G' j :=
  ⟨hl.defs _ _ h.1, fun k v hk => hl.vals _ _ _ (h.2.1 k v hk), hl.snaps _ _ _ h.2.2⟩
theorem ResultOK.mono {E : Env} {G G' : Ghost} {j : Job} (h : ResultOK E G j) (hl : G.le G') : ResultOK E G' j := by
  obtain ⟨p, c, sd, h1, h2⟩ := h
  exact ⟨p, c, sd, hl.snaps _ _ _ h1, h2⟩
theorem KeepsJob.mono {E : Env} {G G' : Ghost} {r u : Job} (h : KeepsJob E G r u) (hl : G.le G') : KeepsJob E G' r u :=
  ⟨h.1, fun hs => (h.2 hs).imp id fun h => h.mono hl⟩
theorem Earned.mono {E : Env} {G G' : Ghost} {t : Task} {v : String} (h : Earned E G t v) (hl : G.le G') : Earned E G' t v := by
  rcases h with h | ⟨n, d, p, c, sd, h1, h2, h3, h4, h5⟩
  · exact .inl h
  · exact .inr ⟨n, d, p, c, sd, hl.stored _ h1, hl.defs _ _ h2, h3, hl.snaps _ _ _ h4, h5⟩
theorem Ended.mono {E : Env} {G G' : Ghost} {t : Task} {v : String} (h : Ended E G t v) (hl : G.le G') : Ended E G' t v := fun hf => (h hf).mono hl
theorem Unrun.mono {G G' : Ghost} {t : Task} {v : String} (h : Unrun G t v) (hl : G.le G') : Unrun G' t v := fun h1 h2 h3 => by
  obtain ⟨d, h4, h5⟩ := h h1 h2 (by
    cases hg : G.works 0 with
    | none => rfl
    | some k => rw [hl.works _ _ hg] at h3; cases h3)
  exact ⟨d, h4.mono hl, h5⟩
theorem RowEnd.mono {E : Env} {G G' : Ghost} {t : Task} (h : RowEnd E G t) (hl : G.le G') : RowEnd E G' t := by
  obtain ⟨h1, h2, v, h3, h4⟩ := h
  refine ⟨fun hs => ?_, h2, v, h3, h4.imp (·.mono hl) (·.mono hl)⟩
  obtain ⟨v, h5, h6⟩ := h1 hs
  exact ⟨v, h5, h6.mono hl⟩
theorem TaskMsg.mono {E : Env} {G G' : Ghost} {q : String} {t : Task} (h : TaskMsg E G q t) (hl : G.le G') : TaskMsg E G' q t :=
  ⟨h.1.mono hl, fun hs => (h.2.1 hs).mono hl, h.2.2.1, fun hs => ⟨(h.2.2.2.1 hs).1, (h.2.2.2.1 hs).2.mono hl⟩, fun hq => (h.2.2.2.2 hq).mono hl⟩
theorem MsgOK.mono {E : Env} {G G' : Ghost} {m : Msg} (h : MsgOK E G m) (hl : G.le G') : MsgOK E G' m := by
  cases m with
  | task q t => exact ⟨h.1.mono hl, fun hq => (h.2 hq).mono hl⟩
  | progress t => exact SeenOK.mono h hl
  | job j => exact ⟨JobOK.mono h.1 hl, h.2⟩
  | _ => trivial

theorem exclusive_not_handed {q : String} (h : isExclusiveQueue q = true) : ¬ (isTaskQueue q = true ∨ q = QUEUE_REDELIVERIES) := by
  rintro (h1 | rfl)
  · unfold isTaskQueue at h1
    rw [h] at h1
    simp at h1
  · exact absurd h (by decide)

theorem exclusive_not_pending {q : String} (h : isExclusiveQueue q = true) : ¬ (q = QUEUE_PENDING ∨ isTaskQueue q = true ∨ q = QUEUE_REDELIVERIES) := by
  rintro (rfl | h1)
  · exact absurd h (by decide)
  · exact exclusive_not_handed h h1

theorem JobOK.ctx {G : Ghost} {j : Job} (h : JobOK G j) : CtxOK G j.id j.context := ⟨_, h.1, rfl, rfl, rfl, h.2.1⟩
theorem JobOK.cx {G : Ghost} {j : Job} (h : JobOK G j) (hs : G.stored j.id) : G.Cx j.id (max 1 j.position) j.context :=
  ⟨hs, h.ctx, _, h.2.2, rfl⟩

theorem Reported.of_same {E : Env} {u v : Task} (h : SameWork u v) : Reported E u v := .inl h
theorem Reported.same {E : Env} {u v x : Task} (h : Reported E u v) (hs : SameWork v x) : Reported E u x := by
  rcases h with h | ⟨r, u', h1, h2, h3⟩
  · exact .inl (h.trans hs)
  · exact .inr ⟨r, u', h1, h2, h3.trans hs⟩

theorem TaskOK.seen {E : Env} {G : Ghost} {t : Task} (h : TaskOK G t) : SeenOK E G t := ⟨t, h, .inl (.refl t)⟩
theorem SeenOK.same {E : Env} {G : Ghost} {t u : Task} (h : SeenOK E G t) (hs : SameWork t u) : SeenOK E G u := by
  obtain ⟨x, h1, h2⟩ := h
  exact ⟨x, h1, h2.same hs⟩
theorem work_id {a b : Task} (h : SameWork a b) : a.id = b.id := (congrArg Task.id h.1 : (work a).id = (work b).id)
theorem work_jobID {a b : Task} (h : SameWork a b) : a.jobID = b.jobID := (congrArg Task.jobID h.1 : (work a).jobID = (work b).jobID)
theorem TaskOK.same {G : Ghost} {t u : Task} (h : TaskOK G t) (hs : SameWork t u) : TaskOK G u := by
  unfold TaskOK; rw [← work_id hs, ← key_eq.2 hs]; exact h

theorem Leaf.same {a b : Task} (h : Leaf a) (hs : SameWork a b) : Leaf b := by
  have h1 : a.parallel.map branches = b.parallel.map branches := (congrArg Task.parallel hs.1 : (work a).parallel = (work b).parallel)
  have h2 : a.each.map loop = b.each.map loop := (congrArg Task.each hs.1 : (work a).each = (work b).each)
  have h3 : a.subJob.map subDef = b.subJob.map subDef := (congrArg Task.subJob hs.1 : (work a).subJob = (work b).subJob)
  refine ⟨?_, ?_, fun s hb => ?_⟩
  · rw [h.1] at h1; exact Option.map_eq_none_iff.1 h1.symm
  · rw [h.2.1] at h2; exact Option.map_eq_none_iff.1 h2.symm
  · rw [hb] at h3
    obtain ⟨x, h4, h5⟩ := Option.map_eq_some_iff.1 h3
    rw [← h.2.2 x h4]
    exact ((congrArg SubJobTask.detached h5 : (subDef x).detached = (subDef s).detached)).symm

theorem work_sub {a b : Task} (hs : SameWork a b) : a.subJob = none ↔ b.subJob = none := by
  have h3 : a.subJob.map subDef = b.subJob.map subDef := (congrArg Task.subJob hs.1 : (work a).subJob = (work b).subJob)
  rw [← Option.map_eq_none_iff (f := subDef), h3, Option.map_eq_none_iff]

theorem work_cond {a b : Task} (h : SameWork a b) : a.cond = b.cond := (congrArg Task.cond h.1 : (work a).cond = (work b).cond)

theorem Unrun.same {G : Ghost} {a b : Task} {v : String} (h : Unrun G a v) (hs : SameWork a b) : Unrun G b v := fun h1 h2 h3 => by
  have e1 : a.parentID = b.parentID := (congrArg Task.parentID hs.1 : (work a).parentID = (work b).parentID)
  have e2 : a.position = b.position := (congrArg Task.position hs.1 : (work a).position = (work b).position)
  have e3 : attempts a = attempts b := hs.2
  rw [← work_jobID hs, ← e2]
  exact h (e1.trans h1) (e3.trans h2) h3

theorem Regular.same {a b : Task} (h : Regular a) (hs : SameWork a b) : Regular b := by
  have h1 := Leaf.same (a := a) (b := b) ⟨h.1, h.2.1, fun s hx => by rw [h.2.2.1] at hx; cases hx⟩ hs
  exact ⟨h1.1, h1.2.1, (work_sub hs).1 h.2.2.1, work_cond hs ▸ h.2.2.2⟩

theorem Earned.same {E : Env} {G : Ghost} {a b : Task} {v : String} (h : Earned E G a v) (hs : SameWork a b) : Earned E G b v := by
  rcases h with ⟨h1, h0, r, u, z, h2, h3, h4⟩ | ⟨n, d, p, c, sd, h1, h2, h3, h4⟩
  · exact .inl ⟨(work_sub hs).1 h1, work_cond hs ▸ h0, r, u, z, h2, hs.symm.trans h3, h4⟩
  · exact .inr ⟨n, d, p, c, sd, h1, h2, h3.trans (work_id hs), h4⟩

theorem Ended.same {E : Env} {G : Ghost} {a b : Task} {v : String} (h : Ended E G a v) (hs : SameWork a b) : Ended E G b v :=
  fun hf => (h (hf.same hs.symm)).same hs

theorem RowEnd.same {E : Env} {G : Ghost} {t u : Task} (h : RowEnd E G t) (hs : SameWork t u) (h1 : u.state = t.state) (h2 : u.result = t.result) : RowEnd E G u := by
  obtain ⟨h3, h4, v, h5, h6⟩ := h
  refine ⟨fun hc => ?_, fun hc => work_cond hs ▸ h4 (h1 ▸ hc), v, h2.trans h5, h6.imp (·.same hs) (·.same hs)⟩
  obtain ⟨v, h7, h8⟩ := h3 (h1 ▸ hc)
  exact ⟨v, h2.trans h7, h8.same hs⟩

theorem TaskMsg.same {E : Env} {G : Ghost} {q : String} {t u : Task} (h : TaskMsg E G q t) (hs : SameWork t u) (h1 : u.state = t.state) (h2 : u.result = t.result) :
    TaskMsg E G q u :=
  ⟨h.1.same hs, fun hc => h2 ▸ (h.2.1 (h1 ▸ hc)).same hs, fun hq => (h.2.2.1 hq).same hs,
    fun hc => ⟨work_cond hs ▸ (h.2.2.2.1 (h1 ▸ hc)).1, h2 ▸ (h.2.2.2.1 (h1 ▸ hc)).2.same hs⟩, fun hq => h2 ▸ (h.2.2.2.2 hq).same hs⟩

/-- Two records with the same id. -/
theorem TaskOK.eq {G : Ghost} {a b : Task} (ha : TaskOK G a) (hb : TaskOK G b) (h : a.id = b.id) : SameWork a b := by
  unfold TaskOK at ha hb
  rw [h, hb] at ha
  exact (key_eq.1 (Option.some.inj ha)).symm

theorem TaskOK.made {E : Env} {G : Ghost} {t : Task} {ds : DS} (h : TaskOK G t) (hi : Inv E G ds) : G.Made E t := by
  obtain ⟨u, h1, h2⟩ := (hi.works _ _ h).2
  exact h2.same (key_eq.1 h1)

theorem Inv.task {E : Env} {G : Ghost} {ds : DS} (hi : Inv E G ds) {n : Nat} {t : Task} (h : ds.task? n = some t) : TaskOK G t := by
  have := hi.tasks n t h
  rwa [← (task?_mem h).2] at this

/-! ## Programs -/

inductive Outcome {γ : Type} (op : DbOp γ) (ds : DS) : Except Err γ → DS → List Msg → Prop
  | ok : Outcome op ds (op.run ds).1 (op.run ds).2.1 (op.run ds).2.2
  | fail (e : Err) : Outcome op ds (.error e) ds []
  | lost (e : Err) : Outcome op ds (.error e) (op.run ds).2.1 (op.run ds).2.2
  | part (e : Err) (x : DS × List Msg) : x ∈ op.partials ds → Outcome op ds (.error e) x.1 x.2

/-- What an operation of a goroutine that owns the job id `T` does to the ghost state. -/
structure Next (E : Env) (G : Ghost) (T : Option Nat) (ds' : DS) (ms : List Msg) (G' : Ghost) (T' : Option Nat) : Prop where
  le : G.le G'
  inv : Inv E G' ds'
  msgs : ∀ m ∈ ms, MsgOK E G' m
  vals : ∀ n k v, G'.vals n k v → G.vals n k v ∨ G.stored n ∧ ∃ j, ds'.job? n = some j ∧ (k, v) ∈ j.context.tasks
  snaps : ∀ n k c, G'.snaps n k c → G.snaps n k c ∨ (G'.stored n → ∃ j, ds'.job? n = some j ∧ j.position = k ∧ j.context = c)
  kept : ∀ n d, G.defs n = some d → (G'.stored n ↔ G.stored n)
  defs : ∀ n, G'.defs n ≠ G.defs n → T = some n
  own : T' = none ∨ T' = T ∧ ∀ n, T = some n → G'.defs n = none

def Good (E : Env) {α : Type} : Prog α → Ghost → Option Nat → (Ghost → α → Prop) → Prop
  | .ret a, G, _, post => ∀ G', G.le G' → post G' a
  | .db op k, G, T, post => ∀ G1 ds, G.le G1 → Inv E G1 ds → (∀ n, T = some n → G1.defs n = none) →
      ∀ r ds' ms, Outcome op ds r ds' ms → ∃ G2 T', Next E G1 T ds' ms G2 T' ∧ Good E (k r) G2 T' post
  | .pub m k, G, T, post => MsgOK E G m ∧ ∀ r, Good E (k r) G T post
  | .nondet k, G, T, post => ∀ n, Good E (k n) G T post
  | .uuid k, G, _, post => ∀ n, Good E (k n) G (some n) post
  | .panic _, _, _, _ => True

variable {E : Env} {α β γ : Type} {G : Ghost} {T : Option Nat} {post : Ghost → α → Prop}

theorem Good.le {p : Prog α} {G G' : Ghost} (h : Good E p G T post) (hl : G.le G') : Good E p G' T post := by
  induction p generalizing G G' T with
  | ret a => exact fun G2 h2 => h G2 (hl.trans h2)
  | db op k ih => exact fun G1 ds h1 => h G1 ds (hl.trans h1)
  | pub m k ih => exact ⟨h.1.mono hl, fun r => ih r (h.2 r) hl⟩
  | nondet k ih => exact fun n => ih n (h n) hl
  | uuid k ih => exact fun n => ih n (h n) hl
  | panic e => trivial

theorem Good.mono {p : Prog α} {post' : Ghost → α → Prop} (h : Good E p G T post')
    (hp : ∀ G' a, G.le G' → post' G' a → post G' a) : Good E p G T post := by
  induction p generalizing G T with
  | ret a => exact fun G2 h2 => hp _ _ h2 (h G2 h2)
  | db op k ih =>
    intro G1 ds h1 hi ho r ds' ms hr
    obtain ⟨G2, T', hn, hg⟩ := h G1 ds h1 hi ho r ds' ms hr
    exact ⟨G2, T', hn, ih r hg fun G' a hl => hp G' a ((h1.trans hn.le).trans hl)⟩
  | pub m k ih => exact ⟨h.1, fun r => ih r (h.2 r) hp⟩
  | nondet k ih => exact fun n => ih n (h n) hp
  | uuid k ih => exact fun n => ih n (h n) hp
  | panic e => trivial

/-- A program that owns nothing may also be run by a goroutine that does. -/
theorem Good.any {p : Prog α} (h : Good E p G none post) : Good E p G T post := by
  induction p generalizing G T with
  | ret a => exact h
  | db op k ih =>
    intro G1 ds h1 hi ho r ds' ms hr
    obtain ⟨G2, T', hn, hg⟩ := h G1 ds h1 hi (fun _ h => by cases h) r ds' ms hr
    refine ⟨G2, none, ⟨hn.le, hn.inv, hn.msgs, hn.vals, hn.snaps, hn.kept, fun n hd => (by cases hn.defs n hd), .inl rfl⟩, ?_⟩
    have : T' = none := by
      rcases hn.own with h | ⟨h, _⟩ <;> exact h
    exact this ▸ hg
  | pub m k ih => exact ⟨h.1, fun r => ih r (h.2 r)⟩
  | nondet k ih => exact fun n => ih n (h n)
  | uuid k ih => exact h
  | panic e => trivial

theorem Good.bind {p : Prog α} {f : α → Prog β} {post : Ghost → β → Prop}
    (h : Good E p G T fun G' a => Good E (f a) G' none post) : Good E (p.bind f) G T post := by
  induction p generalizing G T with
  | ret a => exact (h G (.refl G)).any
  | db op k ih =>
    intro G1 ds h1 hi ho r ds' ms hr
    obtain ⟨G2, T', hn, hg⟩ := h G1 ds h1 hi ho r ds' ms hr
    exact ⟨G2, T', hn, ih r hg⟩
  | pub m k ih => exact ⟨h.1, fun r => ih r (h.2 r)⟩
  | nondet k ih => exact fun n => ih n (h n)
  | uuid k ih => exact fun n => ih n (h n)
  | panic e => trivial

theorem Good.seq {p : Prog α} {f : α → Prog β} {mid : Ghost → α → Prop} {post : Ghost → β → Prop}
    (h : Good E p G T mid) (hf : ∀ G' a, G.le G' → mid G' a → Good E (f a) G' none post) : Good E (p.bind f) G T post :=
  Good.bind (h.mono hf)

abbrev fin : Ghost → α → Prop := fun _ _ => True

theorem good_ret {a : α} (h : ∀ G', G.le G' → post G' a) : Good E (.ret a) G T post := h
theorem good_now {k : Nat → Prog α} (h : ∀ n, Good E (k n) G T post) : Good E (Prog.now.bind k) G T post := h
theorem good_seed {k : Nat → Prog α} (h : ∀ n, Good E (k n) G T post) : Good E (Prog.seed.bind k) G T post := h
theorem good_uuid {k : Nat → Prog α} (h : ∀ n, Good E (k n) G (some n) post) : Good E (Prog.newUUID.bind k) G T post := h
theorem good_pub {m : Msg} {k : Except Err Unit → Prog α} (hm : MsgOK E G m) (h : ∀ r, Good E (k r) G T post) :
    Good E ((publish m).bind k) G T post := ⟨hm, h⟩
theorem good_task {q : String} {t : Task} {k : Except Err Unit → Prog α} (hm : TaskOK G t) (h : ∀ r, Good E (k r) G T post)
    (hs : t.state = .completed → Ended E G t t.result := by intro h; cases h)
    (hq : isTaskQueue q = true ∨ q = QUEUE_REDELIVERIES → Regular t := by intro h; exact absurd h (by decide))
    (hk : t.state = .skipped → trimSpace t.cond = "false" ∧ Unrun G t t.result := by intro h; cases h)
    (hp : q = QUEUE_PENDING ∨ isTaskQueue q = true ∨ q = QUEUE_REDELIVERIES → Unrun G t t.result := by intro h; exact absurd h (by decide)) :
    Good E ((publish (.task q t)).bind k) G T post := ⟨⟨hm.seen, fun _ => ⟨hm, hs, hq, hk, hp⟩⟩, h⟩

/-- A transaction that invents no job. -/
theorem good_tx {f : DS → Except Err (γ × DS)} {k : Except Err γ → Prog α}
    (he : ∀ G' e, G.le G' → Good E (k (.error e)) G' T post)
    (hk : ∀ G1 ds g ds', G.le G1 → Inv E G1 ds → f ds = .ok (g, ds') → ∃ G2, Next E G1 none ds' [] G2 none ∧
      Good E (k (.ok g)) G2 T post) : Good E ((tx f).bind k) G T post := by
  intro G1 ds h1 hi ho r ds' ms hr
  have keep : ∀ {G2}, Next E G1 none ds' [] G2 none → Next E G1 T ds' [] G2 T := fun {G2} hn =>
    have hd : ∀ n, G2.defs n = G1.defs n := fun n => Classical.byContradiction fun h => by cases hn.defs n h
    ⟨hn.le, hn.inv, hn.msgs, hn.vals, hn.snaps, hn.kept, fun n h => absurd (hd n) h, .inr ⟨rfl, fun n h => by rw [hd]; exact ho n h⟩⟩
  have idle : Next E G1 T ds [] G1 T :=
    ⟨.refl _, hi, fun _ h => (by cases h), fun _ _ _ h => .inl h, fun _ _ _ h => .inl h, fun _ _ _ => Iff.rfl, fun _ h => absurd rfl h, .inr ⟨rfl, ho⟩⟩
  have cases_f : (∃ g ds1, f ds = .ok (g, ds1)) ∨ ∃ e, f ds = .error e := by
    cases h : f ds with
    | error e => exact .inr ⟨e, rfl⟩
    | ok x => exact .inl ⟨x.1, x.2, rfl⟩
  cases hr with
  | fail e => exact ⟨G1, T, idle, he G1 e h1⟩
  | ok =>
    rcases cases_f with ⟨g, ds1, hf⟩ | ⟨e, hf⟩
    · rw [Calm.run_of_ok hf] at *
      obtain ⟨G2, hn, hg⟩ := hk G1 ds g ds1 h1 hi hf
      exact ⟨G2, T, keep hn, hg⟩
    · rw [Calm.run_of_err hf] at *
      exact ⟨G1, T, idle, he G1 e h1⟩
  | lost e =>
    rcases cases_f with ⟨g, ds1, hf⟩ | ⟨e', hf⟩
    · rw [Calm.run_of_ok hf] at *
      obtain ⟨G2, hn, hg⟩ := hk G1 ds g ds1 h1 hi hf
      exact ⟨G2, T, keep hn, he G2 e (h1.trans hn.le)⟩
    · rw [Calm.run_of_err hf] at *
      exact ⟨G1, T, idle, he G1 e h1⟩
  | part e x hx => cases hx

end Tork.Origin
