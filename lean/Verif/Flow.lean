import Verif.FlowTasks
/-!
# A logic of obligations for composite tasks

The argument that no job gets stuck is an accounting of *tokens*. A token for the place `(J, 0)` is something — a message, a
running goroutine — that will carry job `J` on; a token for the place `(J, P)` is one that will end in the completion of a
child of the composite task `P` of job `J`, or in the failure of `J`. A composite task whose children are at work, and a
sub-job that has not ended, owe a token to the place of their own parent: these debts are the *edges*. A place needs as many
tokens as completions have to happen before its next edge is paid. `doom J` is the stronger promise that `J` will be failed
or cancelled. All of this is ghost state: it occurs in proofs only.
-/

namespace Tork.Flow
open Prog Calm

/-- A job (`(J, 0)`) or a composite task of a job (`(J, P)`). -/
abbrev Place := Nat × Nat
abbrev Edge := Place × Place

/-- An obligation. -/
inductive Ob
  | tok (x : Place)
  | doom (j : Nat)
  deriving DecidableEq

def Ob.job : Ob → Nat
  | .tok x => x.1
  | .doom j => j

/-- The place a task reports its completion to. -/
def tgt (t : Task) : Place := (t.jobID, t.parentID)

def out (E : List Edge) (x : Place) : Nat := E.countP fun e => decide (e.1 = x)
def inn (E : List Edge) (x : Place) : Nat := E.countP fun e => decide (e.2 = x)

/-- How many completions of children the row absorbs before the next one completes the task. -/
def absorbRow (r : Task) : Nat :=
  match r.parallel with
  | some p => p.tasks.length - 1 - p.completions
  | none =>
    match r.each with
    | some e => (if e.concurrency = 0 then e.size else min e.size e.index) - 1 - e.completions
    | none => 0

def absorb (ds : DS) (n : Nat) : Nat :=
  match ds.task? n with
  | some r => absorbRow r
  | none => 0

open Classical in
/-- The tokens a place needs. -/
noncomputable def need (ds : DS) (E : List Edge) (x : Place) : Nat :=
  if x.2 = 0 then (if Live ds x.1 then 1 else 0)
  else if out E x = 0 then 0 else out E x + absorb ds x.2

/-! ## The invariant -/

/-- What stays true once it is true. -/
structure Le (a b : DS) : Prop where
  tasks : ∀ n r, a.task? n = some r → ∃ r', b.task? n = some r' ∧ Same r r'
  jobs : ∀ n j, a.job? n = some j → ∃ j', b.job? n = some j' ∧ j'.parentID = j.parentID ∧
    (j.state ≠ .pending → j'.state ≠ .pending)

theorem Le.refl (a : DS) : Le a a := ⟨fun _ r h => ⟨r, h, .refl r⟩, fun _ j h => ⟨j, h, rfl, fun h => h⟩⟩
theorem Le.trans {a b c : DS} (h1 : Le a b) (h2 : Le b c) : Le a c := by
  refine ⟨fun n r h => ?_, fun n j h => ?_⟩
  · obtain ⟨r1, k1, k2⟩ := h1.tasks n r h
    obtain ⟨r2, k3, k4⟩ := h2.tasks n r1 k1
    exact ⟨r2, k3, k2.trans k4⟩
  · obtain ⟨j1, k1, k2, k3⟩ := h1.jobs n j h
    obtain ⟨j2, k4, k5, k6⟩ := h2.jobs n j1 k1
    exact ⟨j2, k4, k5.trans k2, fun h => k6 (k3 h)⟩

theorem Le.started {a b : DS} (h : Le a b) {n : Nat} (hs : Started a n) : Started b n := by
  obtain ⟨j, h1, h2⟩ := hs
  obtain ⟨j', k1, _, k3⟩ := h.jobs n j h1
  exact ⟨j', k1, k3 h2⟩

theorem Le.hasJob {a b : DS} (h : Le a b) {n : Nat} (hs : HasJob a n) : HasJob b n := by
  obtain ⟨j, h1⟩ := hs
  obtain ⟨j', k1, _⟩ := h.jobs n j h1
  exact ⟨j', k1⟩

theorem Le.hasTask {a b : DS} (h : Le a b) {n : Nat} (hs : HasTask a n) : HasTask b n := by
  obtain ⟨j, h1⟩ := hs
  obtain ⟨j', k1, _⟩ := h.tasks n j h1
  exact ⟨j', k1⟩

theorem started_job {s : DS} {n : Nat} (h : Started s n) : HasJob s n := by
  obtain ⟨r, hr, _⟩ := h; exact ⟨r, hr⟩

/-- The task with this id has exactly `d` ancestors, all of them composite tasks of the same job. -/
def Anc (ds : DS) : Nat → Nat → Prop
  | 0, id => ∃ r, ds.task? id = some r ∧ r.parentID = 0
  | d + 1, id => ∃ r p, ds.task? id = some r ∧ r.parentID ≠ 0 ∧ r.parentID < id ∧ ds.task? r.parentID = some p ∧
      p.jobID = r.jobID ∧ ((width p).isSome ∨ (conc p).isSome) ∧ Anc ds d r.parentID

theorem Anc.mono {a b : DS} (hl : Le a b) {d id : Nat} (h : Anc a d id) : Anc b d id := by
  induction d generalizing id with
  | zero =>
    obtain ⟨r, h1, h2⟩ := h
    obtain ⟨r', k1, k2⟩ := hl.tasks _ _ h1
    exact ⟨r', k1, k2.parent.trans h2⟩
  | succ d ih =>
    obtain ⟨r, p, h1, h2, h3, h4, h5, h6, h7⟩ := h
    obtain ⟨r', k1, k2⟩ := hl.tasks _ _ h1
    obtain ⟨p', k3, k4⟩ := hl.tasks _ _ h4
    refine ⟨r', p', k1, by rw [k2.parent]; exact h2, by rw [k2.parent]; exact h3, by rw [k2.parent]; exact k3,
      by rw [k4.job, k2.job]; exact h5, by rw [k4.width, k4.conc]; exact h6, by rw [k2.parent]; exact ih h7⟩

/-- A job of sound tasks. -/
structure SoundJob (C : Cfg) (H : Nat) (j : Job) : Prop where
  nonempty : j.tasks ≠ []
  tasks : ∀ t ∈ j.tasks, Virgin t ∧ Sound C H t
  queue : ∀ d, j.defaults = some d → LiteralQueue d.queue
  retry : ∀ d, j.defaults = some d → RetryFine C d.retry

structure JobGood (C : Cfg) (H : Nat) (ds : DS) (j : Job) : Prop where
  reg : SoundJob C H j
  pos : j.state ≠ .pending → 1 ≤ j.position
  pos0 : j.state = .pending → j.position = 0
  state : JobState.proper j.state
  parent : j.parentID ≠ 0 → ∃ S, ds.task? j.parentID = some S ∧ Started ds S.jobID ∧ j.parentID < j.id

structure RowGood (C : Cfg) (H : Nat) (ds : DS) (r : Task) : Prop where
  sound : ∃ d n, Anc ds d r.id ∧ Sound C n r ∧ d + n ≤ H
  job : r.jobID < r.id
  idle : Started ds r.jobID ∨ r.nodeID = 0 ∧ subJobRef r = 0

structure Inv (C : Cfg) (H : Nat) (ds : DS) : Prop where
  jobs : ∀ n j, ds.job? n = some j → JobGood C H ds j
  tasks : ∀ n t, ds.task? n = some t → RowGood C H ds t
  keysT : (ds.tasks.map (·.id)).Nodup

structure InvE (ds : DS) (E : List Edge) : Prop where
  task : ∀ e ∈ E, e.1.2 ≠ 0 → ∃ r, ds.task? e.1.2 = some r ∧ r.jobID = e.1.1 ∧ e.2 = tgt r
  job : ∀ e ∈ E, e.1.2 = 0 → ∃ j S, ds.job? e.1.1 = some j ∧ j.parentID ≠ 0 ∧ ds.task? j.parentID = some S ∧ e.2 = tgt S
  live : ∀ e ∈ E, Live ds e.1.1
  once : ∀ J, out E (J, 0) ≤ 1

structure MsgTask (C : Cfg) (H : Nat) (s : DS) (t : Task) : Prop where
  row : ∃ r, s.task? t.id = some r ∧ Same r t
  sound : ∃ d n, Anc s d t.id ∧ Sound C n t ∧ d + n ≤ H
  started : Started s t.jobID

structure MsgJob (C : Cfg) (H : Nat) (s : DS) (j : Job) : Prop where
  reg : SoundJob C H j
  row : ∃ r, s.job? j.id = some r ∧ r.parentID = j.parentID
  state : j.state = .pending ∨ j.state = .cancelled ∨ j.state = .restart
  started : j.position ≠ 0 → Started s j.id
  restart : j.state = .restart → 1 ≤ j.position ∧ j.position ≤ j.tasks.length

def MsgOK (C : Cfg) (H : Nat) (s : DS) : Msg → Prop
  | .task _ t => MsgTask C H s t
  | .progress t => MsgTask C H s t
  | .job j => MsgJob C H s j
  | _ => True

variable {C : Cfg} {H : Nat}

theorem MsgTask.mono {s s' : DS} {t : Task} (h : MsgTask C H s t) (hl : Le s s') : MsgTask C H s' t := by
  obtain ⟨r, h1, h2⟩ := h.row
  obtain ⟨r', k1, k2⟩ := hl.tasks _ _ h1
  obtain ⟨d, n, h3, h4, h5⟩ := h.sound
  exact ⟨⟨r', k1, k2.symm.trans h2⟩, ⟨d, n, h3.mono hl, h4, h5⟩, hl.started h.started⟩

theorem MsgTask.hasTask {s : DS} {t : Task} (h : MsgTask C H s t) : HasTask s t.id := by
  obtain ⟨r, hr, _⟩ := h.row; exact ⟨r, hr⟩

theorem MsgTask.hasJob {s : DS} {t : Task} (h : MsgTask C H s t) : HasJob s t.jobID := started_job h.started

/-- Only fields that do not matter here change. -/
theorem MsgTask.upd {s : DS} {t u : Task} (h : MsgTask C H s t) (h1 : u.id = t.id) (h2 : u.jobID = t.jobID)
    (h3 : u.parallel = t.parallel) (h4 : u.each = t.each) (h5 : u.subJob = t.subJob) (h6 : u.parentID = t.parentID)
    (h7 : u.queue = t.queue) (h8 : u.retry = t.retry) : MsgTask C H s u := by
  obtain ⟨r, k1, k2⟩ := h.row
  obtain ⟨d, n, k3, k4, k5⟩ := h.sound
  refine ⟨⟨r, by rw [h1]; exact k1, k2.trans ⟨h1, h2, h6, by unfold width; rw [h3], by unfold conc; rw [h4]⟩⟩,
    ⟨d, n, by rw [h1]; exact k3, k4.upd ?_ ?_ h3 h4 h5, k5⟩, by rw [h2]; exact h.started⟩
  · rw [h7]; exact k4.queue
  · rw [h8]; exact k4.retry

theorem MsgJob.hasJob {s : DS} {j : Job} (h : MsgJob C H s j) : HasJob s j.id := by
  obtain ⟨r, hr, _⟩ := h.row; exact ⟨r, hr⟩

theorem MsgJob.mono {s s' : DS} {j : Job} (h : MsgJob C H s j) (hl : Le s s') : MsgJob C H s' j := by
  obtain ⟨r, h1, h2⟩ := h.row
  obtain ⟨r', k1, k2, _⟩ := hl.jobs _ _ h1
  exact ⟨h.reg, ⟨r', k1, k2.trans h2⟩, h.state, fun hp => hl.started (h.started hp), h.restart⟩

theorem MsgOK.mono {s s' : DS} {m : Msg} (h : MsgOK C H s m) (hl : Le s s') : MsgOK C H s' m := by
  cases m with
  | task q t => exact MsgTask.mono h hl
  | progress t => exact MsgTask.mono h hl
  | job j => exact MsgJob.mono h hl
  | _ => trivial

/-- A row is a message about itself. -/
theorem Inv.msg {ds : DS} (hi : Inv C H ds) {n : Nat} {r : Task} (hr : ds.task? n = some r) (hs : Started ds r.jobID) :
    MsgTask C H ds r := by
  have hid := (task?_mem hr).2
  exact ⟨⟨r, by rw [hid]; exact hr, .refl r⟩, (hi.tasks n r hr).sound, hs⟩

open Classical in
/-- The obligation that goes with handing a task to the error handler: with retries (which need total evaluation) the task
is carried on, without them its job will be failed. -/
noncomputable def errOb (C : Cfg) (t : Task) : Ob := if Total C then .tok (tgt t) else .doom t.jobID

open Classical in
/-- The obligations a message stands for. -/
noncomputable def toks (C : Cfg) : Msg → List Ob
  | .task q t => if q = QUEUE_ERROR then [errOb C t] else if Carries q then [.tok (tgt t)] else []
  | .job j =>
    if j.state = .pending then [.tok (j.id, 0)]
    else if j.state = .cancelled ∧ j.position ≠ 0 then [.doom j.id] else []
  | _ => []

noncomputable def toksL (C : Cfg) (ms : List Msg) : List Ob := (ms.map (toks C)).flatten

/-! ## The logic -/

/-- The effect of one transaction by a goroutine owning the ids `T`. -/
structure OpOK (C : Cfg) (H : Nat) (T T' : List Nat) (o o' : List Ob) (E E' : List Edge) (ds ds' : DS) (ms : List Msg) :
    Prop where
  le : Le ds ds'
  inv : Inv C H ds'
  invE : InvE ds' E'
  ownT : ∀ n, ds.task? n = none → ds'.task? n ≠ none → n ∈ T
  ownJ : ∀ n, ds.job? n = none → ds'.job? n ≠ none → n ∈ T
  unused : ∀ n ∈ T', Calm.Unused ds' n
  msgs : ∀ m ∈ ms, MsgOK C H ds' m
  dooms : ∀ J, Ob.doom J ∈ o → Ob.doom J ∈ o' ++ toksL C ms ∨ ¬ Live ds' J
  cover : ∀ x : Place, Ob.doom x.1 ∈ o' ++ toksL C ms ∨
    need ds' E' x ≤ (o' ++ toksL C ms).count (.tok x) + inn E' x ∨
    need ds' E' x + o.count (.tok x) + inn E x ≤ need ds E x + (o' ++ toksL C ms).count (.tok x) + inn E' x

/-- Publishing. -/
structure PubOK (o o' ms : List Ob) : Prop where
  dooms : ∀ J, Ob.doom J ∈ o → Ob.doom J ∈ o' ++ ms
  cover : ∀ x : Place, Ob.doom x.1 ∈ o' ++ ms ∨ o.count (.tok x) ≤ (o' ++ ms).count (.tok x)

def Used (s : DS) (m : Nat) : Prop := HasTask s m ∨ HasJob s m

def Good (C : Cfg) (H : Nat) {α : Type} : Prog α → List Nat → List Ob → DS → (List Nat → List Ob → DS → α → Prop) → Prop
  | .ret a, T, o, s, post => ∀ s', Le s s' → post T o s' a
  | .db op k, T, o, s, post => ∀ ds E, Le s ds → Inv C H ds → InvE ds E → (∀ n ∈ T, Calm.Unused ds n) →
      ∃ T' o' E', T'.Sublist T ∧ OpOK C H T T' o o' E E' ds (op.run ds).2.1 (op.run ds).2.2 ∧
        Good C H (k (op.run ds).1) T' o' (op.run ds).2.1 post
  | .pub m k, T, o, s, post => MsgOK C H s m ∧ ∃ o', PubOK o o' (toks C m) ∧ Good C H (k (.ok ())) T o' s post
  | .nondet k, T, o, s, post => ∀ n, Good C H (k n) T o s post
  | .uuid k, T, o, s, post => ∀ n, n ≠ 0 → n ∉ T → (∀ m, Used s m → m < n) → Good C H (k n) (n :: T) o s post
  | .panic _, _, _, _, _ => False

theorem Good.le {α : Type} {p : Prog α} {T : List Nat} {o : List Ob} {s s' : DS}
    {post : List Nat → List Ob → DS → α → Prop} (h : Good C H p T o s post) (hl : Le s s') : Good C H p T o s' post := by
  induction p generalizing T o s s' with
  | ret a => exact fun s'' h' => h s'' (hl.trans h')
  | db op k ih => exact fun ds E hd => h ds E (hl.trans hd)
  | pub m k ih =>
    obtain ⟨h1, o', h2, h3⟩ := h
    exact ⟨h1.mono hl, o', h2, ih _ h3 hl⟩
  | nondet k ih => exact fun n => ih _ (h n) hl
  | uuid k ih => exact fun n hn hT hu => ih _ (h n hn hT fun m hm => hu m (hm.imp hl.hasTask hl.hasJob)) hl
  | panic s => exact h

theorem Good.mono {α : Type} {p : Prog α} {T : List Nat} {o : List Ob} {s : DS}
    {post post' : List Nat → List Ob → DS → α → Prop} (h : Good C H p T o s post)
    (hp : ∀ T o s' a, Le s s' → post T o s' a → post' T o s' a) : Good C H p T o s post' := by
  induction p generalizing T o s with
  | ret a => exact fun s' h' => hp _ _ _ _ h' (h s' h')
  | db op k ih =>
    intro ds E hd hi he hu
    obtain ⟨T', o', E', h1, h2, h4⟩ := h ds E hd hi he hu
    exact ⟨T', o', E', h1, h2, ih _ h4 fun T o s' a hl => hp T o s' a ((hd.trans h2.le).trans hl)⟩
  | pub m k ih =>
    obtain ⟨h1, o', h2, h3⟩ := h
    exact ⟨h1, o', h2, ih _ h3 hp⟩
  | nondet k ih => exact fun n => ih _ (h n) hp
  | uuid k ih => exact fun n hn hT hu => ih _ (h n hn hT hu) hp
  | panic s => exact h

theorem Good.bind {α β : Type} {p : Prog α} {f : α → Prog β} {T : List Nat} {o : List Ob} {s : DS}
    {post : List Nat → List Ob → DS → β → Prop}
    (h : Good C H p T o s fun T' o' s' a => Good C H (f a) T' o' s' post) : Good C H (p.bind f) T o s post := by
  induction p generalizing T o s with
  | ret a => exact h s (Le.refl s)
  | db op k ih =>
    intro ds E hd hi he hu
    obtain ⟨T', o', E', h1, h2, h4⟩ := h ds E hd hi he hu
    exact ⟨T', o', E', h1, h2, ih _ h4⟩
  | pub m k ih =>
    obtain ⟨h1, o', h2, h3⟩ := h
    exact ⟨h1, o', h2, ih _ h3⟩
  | nondet k ih => exact fun n => ih _ (h n)
  | uuid k ih => exact fun n hn hT hu => ih _ (h n hn hT hu)
  | panic s => exact h

/-- Sequencing with a postcondition. -/
theorem Good.seq {α β : Type} {p : Prog α} {f : α → Prog β} {T : List Nat} {o : List Ob} {s : DS}
    {mid : List Nat → List Ob → DS → α → Prop} {post : List Nat → List Ob → DS → β → Prop}
    (h : Good C H p T o s mid) (hf : ∀ T' o' s' a, Le s s' → mid T' o' s' a → Good C H (f a) T' o' s' post) :
    Good C H (p.bind f) T o s post :=
  Good.bind (h.mono fun T o s' a hl hm => hf T o s' a hl hm)

variable {α γ : Type} {T : List Nat} {o : List Ob} {s : DS} {post : List Nat → List Ob → DS → α → Prop}

theorem good_now {k : Nat → Prog α} (h : ∀ n, Good C H (k n) T o s post) : Good C H (Prog.now.bind k) T o s post := h
theorem good_seed {k : Nat → Prog α} (h : ∀ n, Good C H (k n) T o s post) : Good C H (Prog.seed.bind k) T o s post := h
theorem good_uuid {k : Nat → Prog α}
    (h : ∀ n, n ≠ 0 → n ∉ T → (∀ m, Used s m → m < n) → Good C H (k n) (n :: T) o s post) :
    Good C H (Prog.newUUID.bind k) T o s post := h

/-! ## Publishing -/

theorem PubOK.keep (o ms : List Ob) : PubOK o o ms :=
  ⟨fun J h => List.mem_append_left _ h, fun x => .inr (by rw [List.count_append]; omega)⟩

/-- Nothing is owed any more. -/
theorem PubOK.all {o ms : List Ob} (h : ∀ x, o.count x ≤ ms.count x) : PubOK o [] ms :=
  ⟨fun J hJ => by
    have h1 := h (.doom J)
    have := List.count_pos_iff.2 hJ
    exact List.count_pos_iff.1 (by simpa using (by omega : 0 < ms.count (.doom J))), fun x => .inr (h (.tok x))⟩

theorem PubOK.doom {o ms : List Ob} {J : Nat} (hd : Ob.doom J ∈ ms) (h : ∀ x ∈ o, x.job = J) : PubOK o [] ms := by
  refine ⟨fun K hK => ?_, fun x => ?_⟩
  · have : K = J := h _ hK
    rw [this]; exact hd
  · by_cases hx : x.1 = J
    · left; rw [hx]; exact hd
    · right
      have : o.count (.tok x) = 0 := List.count_eq_zero.2 fun hm => hx (h _ hm)
      omega

theorem good_pub {m : Msg} {k : Except Err Unit → Prog α} (hm : MsgOK C H s m) (o' : List Ob)
    (ho : PubOK o o' (toks C m)) (h : Good C H (k (.ok ())) T o' s post) :
    Good C H ((publish m).bind k) T o s post := ⟨hm, o', ho, h⟩

theorem good_pubT {q : String} {t : Task} {k : Except Err Unit → Prog α} (hm : MsgTask C H s t) (o' : List Ob)
    (ho : PubOK o o' (toks C (.task q t))) (h : Good C H (k (.ok ())) T o' s post) :
    Good C H ((publish (.task q t)).bind k) T o s post := ⟨hm, o', ho, h⟩

theorem good_pubP {t : Task} {k : Except Err Unit → Prog α} (hm : MsgTask C H s t)
    (h : Good C H (k (.ok ())) T o s post) :
    Good C H ((publish (.progress t)).bind k) T o s post := ⟨hm, o, .keep _ _, h⟩

/-! ## Reading -/

theorem toksL_nil : toksL C [] = [] := rfl

theorem OpOK.refl {E : List Edge} {ds : DS} (hi : Inv C H ds) (he : InvE ds E) (hu : ∀ n ∈ T, Calm.Unused ds n) :
    OpOK C H T T o o E E ds ds [] where
  le := .refl ds
  inv := hi
  invE := he
  ownT _ h h' := absurd h h'
  ownJ _ h h' := absurd h h'
  unused := hu
  msgs _ h := by cases h
  dooms J h := .inl (by rw [toksL_nil, List.append_nil]; exact h)
  cover x := .inr (.inr (by rw [toksL_nil, List.append_nil]; omega))

/-- A transaction that reads only. -/
theorem good_read {f : DS → Except Err (γ × DS)} {k : Except Err γ → Prog α}
    (hf : ∀ ds g ds', f ds = .ok (g, ds') → ds' = ds)
    (h : ∀ ds, Le s ds → Inv C H ds → Good C H (k ((f ds).map Prod.fst)) T o ds post) :
    Good C H ((tx f).bind k) T o s post := by
  intro ds E hd hi he hu
  have hrun : (DbOp.of f).run ds = ((f ds).map Prod.fst, ds, []) := by
    unfold DbOp.of; dsimp only
    cases hx : f ds with
    | error e => rfl
    | ok x => obtain ⟨g, ds'⟩ := x; rw [hf _ _ _ hx]; rfl
  refine ⟨T, o, E, List.Sublist.refl _, ?_, ?_⟩
  · show OpOK C H T T o o E E ds ((DbOp.of f).run ds).2.1 ((DbOp.of f).run ds).2.2
    rw [hrun]; exact .refl hi he hu
  · show Good C H (k ((DbOp.of f).run ds).1) T o ((DbOp.of f).run ds).2.1 post
    rw [hrun]; exact h ds hd hi

theorem good_getJob {id : Nat} {k : Except Err Job → Prog α} (hj : HasJob s id)
    (h : ∀ ds j, Le s ds → Inv C H ds → ds.job? id = some j → Good C H (k (.ok j)) T o ds post) :
    Good C H ((tx (getJob id)).bind k) T o s post := by
  refine good_read (fun ds g ds' hg => ?_) fun ds hd hi => ?_
  · unfold getJob at hg; split at hg
    · exact absurd hg (by simp)
    · cases hg; rfl
  · obtain ⟨j, hj⟩ := hd.hasJob hj
    unfold getJob; rw [hj]
    exact h ds j hd hi hj

/-- Reading a job that may not exist. -/
theorem good_getJob? {id : Nat} {k : Except Err Job → Prog α}
    (he : ∀ ds e, Le s ds → Good C H (k (.error e)) T o ds post)
    (h : ∀ ds j, Le s ds → Inv C H ds → ds.job? id = some j → Good C H (k (.ok j)) T o ds post) :
    Good C H ((tx (getJob id)).bind k) T o s post := by
  refine good_read (fun ds g ds' hg => ?_) fun ds hd hi => ?_
  · unfold getJob at hg; split at hg
    · exact absurd hg (by simp)
    · cases hg; rfl
  · unfold getJob
    cases hj : ds.job? id with
    | none => exact he ds _ hd
    | some j => exact h ds j hd hi hj

theorem good_getTask {id : Nat} {k : Except Err Task → Prog α} (hj : HasTask s id)
    (h : ∀ ds t, Le s ds → Inv C H ds → ds.task? id = some t → Good C H (k (.ok t)) T o ds post) :
    Good C H ((tx (getTask id)).bind k) T o s post := by
  refine good_read (fun ds g ds' hg => ?_) fun ds hd hi => ?_
  · unfold getTask at hg; split at hg
    · exact absurd hg (by simp)
    · cases hg; rfl
  · obtain ⟨j, hj⟩ := hd.hasTask hj
    unfold getTask; rw [hj]
    exact h ds j hd hi hj

theorem good_getNode {id : Nat} {k : Except Err Node → Prog α}
    (h : ∀ ds r, Le s ds → Good C H (k r) T o ds post) : Good C H ((tx (getNode id)).bind k) T o s post := by
  refine good_read (fun ds g ds' hg => ?_) fun ds hd hi => ?_
  · unfold getNode at hg; split at hg
    · exact absurd hg (by simp)
    · cases hg; rfl
  · exact h ds _ hd

/-- A task row read from the database, of a job that may not have been started yet. -/
def Loose (C : Cfg) (H : Nat) (s : DS) (t : Task) : Prop :=
  HasTask s t.id ∧ (MsgTask C H s t ∨ t.nodeID = 0 ∧ subJobRef t = 0)

theorem Loose.mono {s s' : DS} {t : Task} (h : Loose C H s t) (hl : Le s s') : Loose C H s' t :=
  ⟨hl.hasTask h.1, h.2.imp (fun h => h.mono hl) fun h => h⟩

theorem good_getActive {id : Nat} {k : Except Err (List Task) → Prog α}
    (h : ∀ ds ts, Le s ds → (∀ t ∈ ts, Loose C H ds t) → Good C H (k (.ok ts)) T o ds post) :
    Good C H ((tx (getActiveTasks id)).bind k) T o s post := by
  refine good_read (fun ds g ds' hg => ?_) fun ds hd hi => ?_
  · unfold getActiveTasks at hg; cases hg; rfl
  · refine h ds _ hd fun t ht => ?_
    have ht := List.mem_filter.1 ht
    have hm := task?_of_mem hi.keysT ht.1
    exact ⟨⟨t, hm⟩, (hi.tasks _ _ hm).idle.imp (fun hs => hi.msg hm hs) fun h => h⟩

end Tork.Flow
