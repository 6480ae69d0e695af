import Verif.Flow
/-! Transactions of the obligation logic. -/

namespace Tork.Flow
open Prog Calm

variable {C : Cfg} {H : Nat}

/-! ## Counting -/

theorem out_le {E E' : List Edge} (h : E'.Sublist E) (x : Place) : out E' x ≤ out E x := h.countP_le

theorem need_le {a b : DS} {E E' : List Edge} (hl : ∀ n, Live b n → Live a n) (ho : ∀ x, out E' x ≤ out E x)
    (hab : ∀ n, absorb b n ≤ absorb a n) (x : Place) : need b E' x ≤ need a E x := by
  unfold need
  split
  · split
    · rename_i h; rw [if_pos (hl _ h)]; exact Nat.le_refl _
    · exact Nat.zero_le _
  · split
    · exact Nat.zero_le _
    · rename_i h
      have := ho x
      have := hab x.2
      rw [if_neg (by omega)]
      omega

/-- A place without open composite or live job needs nothing. -/
theorem need_dead {ds : DS} {E : List Edge} (he : InvE ds E) {x : Place} (h : ¬ Live ds x.1) : need ds E x = 0 := by
  unfold need
  by_cases h0 : x.2 = 0
  · rw [if_pos h0, if_neg h]
  · rw [if_neg h0, if_pos]
    unfold out
    rw [List.countP_eq_zero]
    intro e hx hd
    have hd := of_decide_eq_true hd
    exact h (by rw [← hd]; exact he.live e hx)

theorem inn_filter_le (E : List Edge) (p : Edge → Bool) (x : Place) : inn (E.filter p) x ≤ inn E x :=
  (List.filter_sublist (l := E) (p := p)).countP_le

/-! ## Changes of rows -/

structure TaskUpd (C : Cfg) (ds : DS) (r r' : Task) : Prop where
  same : Same r r'
  sound : ∀ k, Sound C k r → Sound C k r'
  idle : Started ds r.jobID ∨ r'.nodeID = r.nodeID ∧ subJobRef r' = subJobRef r

def JobOK (j : Job) : Prop :=
  (j.state ≠ .pending → 1 ≤ j.position) ∧ (j.state = .pending → j.position = 0) ∧ JobState.proper j.state

structure JobUpd (j j' : Job) : Prop where
  id : j'.id = j.id
  parent : j'.parentID = j.parentID
  tasks : j'.tasks = j.tasks
  defaults : j'.defaults = j.defaults
  np : j.state ≠ .pending → j'.state ≠ .pending
  ok : JobOK j → JobOK j'

/-- Rows change, none appears or disappears. -/
structure Upd (C : Cfg) (ds ds' : DS) : Prop where
  task : ∀ n r', ds'.task? n = some r' → ∃ r, ds.task? n = some r ∧ TaskUpd C ds r r'
  hasT : ∀ n, HasTask ds n → HasTask ds' n
  job : ∀ n j', ds'.job? n = some j' → ∃ j, ds.job? n = some j ∧ JobUpd j j'
  hasJ : ∀ n, HasJob ds n → HasJob ds' n
  keys : ds'.tasks.map (·.id) = ds.tasks.map (·.id)

theorem TaskUpd.refl (ds : DS) (r : Task) : TaskUpd C ds r r := ⟨.refl r, fun _ h => h, .inr ⟨rfl, rfl⟩⟩
theorem JobUpd.refl (j : Job) : JobUpd j j := ⟨rfl, rfl, rfl, rfl, fun h => h, fun h => h⟩
theorem JobUpd.trans {a b c : Job} (h1 : JobUpd a b) (h2 : JobUpd b c) : JobUpd a c :=
  ⟨h2.id.trans h1.id, h2.parent.trans h1.parent, h2.tasks.trans h1.tasks, h2.defaults.trans h1.defaults,
    fun h => h2.np (h1.np h), fun h => h2.ok (h1.ok h)⟩

theorem Upd.refl (ds : DS) : Upd C ds ds :=
  ⟨fun _ r h => ⟨r, h, .refl ds r⟩, fun _ h => h, fun _ j h => ⟨j, h, .refl j⟩, fun _ h => h, rfl⟩

theorem Upd.le {a b : DS} (h : Upd C a b) : Le a b := by
  refine ⟨fun n r hr => ?_, fun n j hj => ?_⟩
  · obtain ⟨r', hr'⟩ := h.hasT n ⟨r, hr⟩
    obtain ⟨r0, h1, h2⟩ := h.task n r' hr'
    rw [hr] at h1; cases h1
    exact ⟨r', hr', h2.same⟩
  · obtain ⟨j', hj'⟩ := h.hasJ n ⟨j, hj⟩
    obtain ⟨j0, h1, h2⟩ := h.job n j' hj'
    rw [hj] at h1; cases h1
    exact ⟨j', hj', h2.parent, h2.np⟩

/-- The jobs of the second database may be started only if those of the first are. -/
def Upd.Quiet (a b : DS) : Prop := ∀ n, Started b n → Started a n

theorem Upd.trans {a b c : DS} (h1 : Upd C a b) (h2 : Upd C b c) (hq : Upd.Quiet a b) : Upd C a c := by
  refine ⟨fun n r' hr => ?_, fun n h => h2.hasT n (h1.hasT n h), fun n j' hj => ?_, fun n h => h2.hasJ n (h1.hasJ n h),
    h2.keys.trans h1.keys⟩
  · obtain ⟨r1, k1, k2⟩ := h2.task n r' hr
    obtain ⟨r0, k3, k4⟩ := h1.task n r1 k1
    refine ⟨r0, k3, k4.same.trans k2.same, fun k h => k2.sound k (k4.sound k h), ?_⟩
    rcases k4.idle with h | h
    · exact .inl h
    · rcases k2.idle with h' | h'
      · left; rw [← k4.same.job]; exact hq _ h'
      · exact .inr ⟨h'.1.trans h.1, h'.2.trans h.2⟩
  · obtain ⟨j1, k1, k2⟩ := h2.job n j' hj
    obtain ⟨j0, k3, k4⟩ := h1.job n j1 k1
    exact ⟨j0, k3, k4.trans k2⟩

theorem Upd.inv {a b : DS} (h : Upd C a b) (hi : Inv C H a) : Inv C H b := by
  refine ⟨fun n j' hj => ?_, fun n r' hr => ?_, by rw [h.keys]; exact hi.keysT⟩
  · obtain ⟨j, h1, h2⟩ := h.job n j' hj
    have hg := hi.jobs n j h1
    obtain ⟨k1, k2, k3⟩ := h2.ok ⟨hg.pos, hg.pos0, hg.state⟩
    refine ⟨⟨by rw [h2.tasks]; exact hg.reg.nonempty, by rw [h2.tasks]; exact hg.reg.tasks,
      by rw [h2.defaults]; exact hg.reg.queue, by rw [h2.defaults]; exact hg.reg.retry⟩, k1, k2, k3, ?_⟩
    rw [h2.parent, h2.id]
    intro hp
    obtain ⟨S, k4, k5, k6⟩ := hg.parent hp
    obtain ⟨S', k7, k8⟩ := h.le.tasks _ _ k4
    exact ⟨S', k7, by rw [k8.job]; exact h.le.started k5, k6⟩
  · obtain ⟨r, h1, h2⟩ := h.task n r' hr
    have hg := hi.tasks n r h1
    obtain ⟨d, k, k1, k2, k3⟩ := hg.sound
    refine ⟨⟨d, k, ?_, h2.sound k k2, k3⟩, by rw [h2.same.job, h2.same.id]; exact hg.job, ?_⟩
    · rw [h2.same.id]; exact k1.mono h.le
    · rw [h2.same.job]
      rcases h2.idle with h' | h'
      · exact .inl (h.le.started h')
      · rw [h'.1, h'.2]
        exact hg.idle.imp h.le.started fun h => h

theorem InvE.upd {a b : DS} {E E' : List Edge} (he : InvE a E) (h : Le a b) (hs : E'.Sublist E)
    (hl : ∀ e ∈ E', Live b e.1.1) : InvE b E' := by
  refine ⟨fun e hx hn => ?_, fun e hx hn => ?_, hl, fun J => Nat.le_trans (out_le hs _) (he.once J)⟩
  · obtain ⟨r, h1, h2, h3⟩ := he.task e (hs.subset hx) hn
    obtain ⟨r', k1, k2⟩ := h.tasks _ _ h1
    exact ⟨r', k1, k2.job.trans h2, by rw [h3]; unfold tgt; rw [k2.job, k2.parent]⟩
  · obtain ⟨j, S, h1, h2, h3, h4⟩ := he.job e (hs.subset hx) hn
    obtain ⟨j', k1, k2, _⟩ := h.jobs _ _ h1
    obtain ⟨S', k3, k4⟩ := h.tasks _ _ h3
    exact ⟨j', S', k1, by rw [k2]; exact h2, by rw [k2]; exact k3, by rw [h4]; unfold tgt; rw [k4.job, k4.parent]⟩

theorem Upd.unused {a b : DS} (h : Upd C a b) {n : Nat} (hu : Calm.Unused a n) : Calm.Unused b n := by
  constructor
  · cases hj : b.job? n with
    | none => rfl
    | some j =>
      obtain ⟨_, k, _⟩ := h.job n j hj
      rw [hu.job] at k; cases k
  · cases hj : b.task? n with
    | none => rfl
    | some j =>
      obtain ⟨_, k, _⟩ := h.task n j hj
      rw [hu.task] at k; cases k

/-- An operation that only changes rows. -/
theorem opok_upd {T : List Nat} {o o' : List Ob} {E E' : List Edge} {a b : DS} {ms : List Msg} (hi : Inv C H a)
    (hu : ∀ n ∈ T, Calm.Unused a n) (h : Upd C a b) (hE : InvE b E')
    (hm : ∀ m ∈ ms, MsgOK C H b m) (hd : ∀ J, Ob.doom J ∈ o → Ob.doom J ∈ o' ++ toksL C ms ∨ ¬ Live b J)
    (hc : ∀ x : Place, Ob.doom x.1 ∈ o' ++ toksL C ms ∨
      need b E' x ≤ (o' ++ toksL C ms).count (.tok x) + inn E' x ∨
      need b E' x + o.count (.tok x) + inn E x ≤ need a E x + (o' ++ toksL C ms).count (.tok x) + inn E' x) :
    OpOK C H T T o o' E E' a b ms where
  le := h.le
  inv := h.inv hi
  invE := hE
  ownT n h1 h2 := by
    exfalso; apply h2
    cases hj : b.task? n with
    | none => rfl
    | some j => obtain ⟨_, k, _⟩ := h.task n j hj; rw [h1] at k; cases k
  ownJ n h1 h2 := by
    exfalso; apply h2
    cases hj : b.job? n with
    | none => rfl
    | some j => obtain ⟨_, k, _⟩ := h.job n j hj; rw [h1] at k; cases k
  unused n hn := h.unused (hu n hn)
  msgs := hm
  dooms := hd
  cover := hc

theorem upd_setTask {ds : DS} {id : Nat} {r u : Task} (hr : ds.task? id = some r) (h : TaskUpd C ds r (persistTask r u)) :
    Upd C ds (ds.setTask id u) := by
  refine ⟨fun n r' hr' => ?_, fun n ⟨t, ht⟩ => ?_, fun _ j h => ⟨j, h, .refl j⟩, fun _ h => h, keys_setTask _ _ _⟩
  · rw [task?_setTask] at hr'
    split at hr'
    · rename_i hn; subst hn; rw [hr] at hr'; cases hr'
      exact ⟨r, hr, h⟩
    · exact ⟨r', hr', .refl _ _⟩
  · unfold HasTask; rw [task?_setTask]
    split
    · exact ⟨persistTask t u, by rw [ht]; rfl⟩
    · exact ⟨t, ht⟩

theorem upd_setJob {ds : DS} {id : Nat} {r u : Job} (hr : ds.job? id = some r) (h : JobUpd r (persistJob r u)) :
    Upd C ds (ds.setJob id u) := by
  refine ⟨fun _ r h => ⟨r, h, .refl _ r⟩, fun _ h => h, fun n r' hr' => ?_, fun n ⟨t, ht⟩ => ?_, rfl⟩
  · rw [job?_setJob] at hr'
    split at hr'
    · rename_i hn; subst hn; rw [hr] at hr'; cases hr'
      exact ⟨r, hr, h⟩
    · exact ⟨r', hr', .refl _⟩
  · unfold HasJob; rw [job?_setJob]
    split
    · exact ⟨persistJob t u, by rw [ht]; rfl⟩
    · exact ⟨t, ht⟩

theorem absorb_setTask {ds : DS} {id : Nat} {r u : Task} (hr : ds.task? id = some r) (n : Nat) :
    absorb (ds.setTask id u) n = if n = id then absorbRow (persistTask r u) else absorb ds n := by
  unfold absorb
  rw [task?_setTask]
  by_cases h : n = id
  · rw [if_pos h, if_pos h, h, hr]; rfl
  · rw [if_neg h, if_neg h]

theorem absorb_setJob {ds : DS} {id : Nat} {u : Job} (n : Nat) : absorb (ds.setJob id u) n = absorb ds n := rfl

theorem absorb_persist {r u : Task} (h1 : u.parallel = r.parallel) (h2 : u.each = r.each) :
    absorbRow (persistTask r u) = absorbRow r := by
  unfold absorbRow persistTask; dsimp only; rw [h1, h2]

/-- The usual updates of a task row. -/
theorem taskUpd_of {ds : DS} {r u : Task} (h1 : u.parallel = r.parallel) (h2 : u.each = r.each)
    (h3 : u.subJob = r.subJob) (h4 : LiteralQueue r.queue → LiteralQueue u.queue)
    (h5 : RetryFine C r.retry → RetryFine C u.retry) (h6 : Started ds r.jobID ∨ u.nodeID = r.nodeID) :
    TaskUpd C ds r (persistTask r u) := by
  refine ⟨⟨rfl, rfl, rfl, ?_, ?_⟩, fun k hk => hk.upd (h4 hk.queue) (h5 hk.retry) h1 h2 h3, h6.imp (fun h => h) fun h => ⟨h, ?_⟩⟩
  · unfold width persistTask; dsimp only; rw [h1]
  · unfold conc persistTask; dsimp only; rw [h2]
  · unfold subJobRef persistTask; dsimp only; rw [h3]

variable {α γ : Type} {T : List Nat} {o : List Ob} {s : DS} {post : List Nat → List Ob → DS → α → Prop}

theorem started_setTask {ds : DS} {id n : Nat} {u : Task} : Started (ds.setTask id u) n ↔ Started ds n := Iff.rfl

/-- Liveness and obligations unchanged. -/
theorem opok_same {E : List Edge} {a b : DS} (hi : Inv C H a) (he : InvE a E) (hu : ∀ n ∈ T, Calm.Unused a n)
    (h : Upd C a b) (hl : ∀ n, Live b n ↔ Live a n) (hab : ∀ n, absorb b n ≤ absorb a n) :
    OpOK C H T T o o E E a b [] := by
  refine opok_upd hi hu h (he.upd h.le (List.Sublist.refl _) fun e hx => (hl _).2 (he.live e hx))
    (fun m hm => by cases hm) (fun J hJ => .inl (List.mem_append_left _ hJ)) fun x => .inr (.inr ?_)
  rw [toksL_nil, List.append_nil]
  have := need_le (fun n => (hl n).1) (fun x => Nat.le_refl (out E x)) hab x
  omega

theorem good_step {op : DbOp γ} {k : Except Err γ → Prog α}
    (h : ∀ ds E, Le s ds → Inv C H ds → InvE ds E → (∀ n ∈ T, Calm.Unused ds n) →
      ∃ r ds' ms T' o' E', op.run ds = (r, ds', ms) ∧ T'.Sublist T ∧ OpOK C H T T' o o' E E' ds ds' ms ∧
        Good C H (k r) T' o' ds' post) : Good C H ((txOp op).bind k) T o s post := by
  intro ds E hd hi he hu
  obtain ⟨r, ds', ms, T', o', E', h1, h2, h3, h4⟩ := h ds E hd hi he hu
  refine ⟨T', o', E', h2, ?_, ?_⟩
  · rw [h1]; exact h3
  · show Good C H (k (op.run ds).1) T' o' (op.run ds).2.1 post
    rw [h1]; exact h4

theorem good_tx {f : DS → Except Err (γ × DS)} {k : Except Err γ → Prog α}
    (h : ∀ ds E, Le s ds → Inv C H ds → InvE ds E → (∀ n ∈ T, Calm.Unused ds n) →
      (∃ e, f ds = .error e ∧ Good C H (k (.error e)) T o ds post) ∨
      ∃ g ds' T' o' E', f ds = .ok (g, ds') ∧ T'.Sublist T ∧ OpOK C H T T' o o' E E' ds ds' [] ∧
        Good C H (k (.ok g)) T' o' ds' post) : Good C H ((tx f).bind k) T o s post := by
  refine good_step (op := DbOp.of f) fun ds E hd hi he hu => ?_
  rcases h ds E hd hi he hu with ⟨e, h1, h2⟩ | ⟨g, ds', T', o', E', h1, h2, h3, h4⟩
  · exact ⟨.error e, ds, [], T, o, E, run_of_err h1, List.Sublist.refl _, .refl hi he hu, h2⟩
  · exact ⟨.ok g, ds', [], T', o', E', run_of_ok h1, h2, h3, h4⟩

/-- Changing a task row without consequences for the accounting. -/
theorem good_updTask {id : Nat} {m : Task → Task} {k : Except Err Unit → Prog α} (hid : HasTask s id)
    (hm : ∀ ds r, Le s ds → Inv C H ds → ds.task? id = some r →
      TaskUpd C ds r (persistTask r (m r)) ∧ absorbRow (persistTask r (m r)) ≤ absorbRow r)
    (h : ∀ s', Le s s' → Good C H (k (.ok ())) T o s' post) : Good C H ((tx (updateTask' id m)).bind k) T o s post := by
  refine good_tx fun ds E hd hi he hu => .inr ?_
  obtain ⟨r, hr⟩ := hd.hasTask hid
  obtain ⟨h1, h2⟩ := hm ds r hd hi hr
  have hup := upd_setTask hr h1
  refine ⟨(), ds.setTask id (m r), T, o, E, ?_, List.Sublist.refl _,
    opok_same hi he hu hup (fun n => Iff.rfl) (fun n => ?_), h _ (hd.trans hup.le)⟩
  · unfold updateTask' updateTask; rw [hr]
  · rw [absorb_setTask hr]
    split
    · rename_i hn; unfold absorb; rw [hn, hr]; exact h2
    · exact Nat.le_refl _

/-- Updates that leave the sections alone. -/
theorem good_updTask' {id : Nat} {m : Task → Task} {k : Except Err Unit → Prog α} (hid : HasTask s id)
    (h1 : ∀ r, (m r).parallel = r.parallel) (h2 : ∀ r, (m r).each = r.each)
    (h3 : ∀ r, (m r).subJob = r.subJob) (h4 : ∀ r, LiteralQueue r.queue → LiteralQueue (m r).queue)
    (h5 : ∀ r, RetryFine C r.retry → RetryFine C (m r).retry)
    (h6 : (∃ r J, s.task? id = some r ∧ r.jobID = J ∧ Started s J) ∨ ∀ r, (m r).nodeID = r.nodeID)
    (h : ∀ s', Le s s' → Good C H (k (.ok ())) T o s' post) : Good C H ((tx (updateTask' id m)).bind k) T o s post := by
  refine good_updTask hid (fun ds r hl hi hr => ⟨taskUpd_of (h1 r) (h2 r) (h3 r) (h4 r) (h5 r) ?_, ?_⟩) h
  · rcases h6 with ⟨r0, J, k1, k2, k3⟩ | h6
    · left
      obtain ⟨r1, k4, k5⟩ := hl.tasks _ _ k1
      rw [hr] at k4; cases k4
      rw [k5.job, k2]; exact hl.started k3
    · exact .inr (h6 r)
  · rw [absorb_persist (h1 r) (h2 r)]; exact Nat.le_refl _

theorem MsgTask.owner {t : Task} (h : MsgTask C H s t) : ∃ r J, s.task? t.id = some r ∧ r.jobID = J ∧ Started s J := by
  obtain ⟨r, h1, h2⟩ := h.row
  exact ⟨r, t.jobID, h1, h2.job.symm, h.started⟩

/-! ## Jobs -/

theorem live_setJob {ds : DS} {id : Nat} {r u : Job} (hr : ds.job? id = some r) (n : Nat) : Live (ds.setJob id u) n ↔
    if n = id then u.state = .pending ∨ u.state = .scheduled ∨ u.state = .running else Live ds n := by
  unfold Live
  rw [job?_setJob]
  split
  · rename_i h; subst h
    rw [hr]
    constructor
    · rintro ⟨j, hj, hs⟩; cases hj; exact hs
    · intro hs; exact ⟨_, rfl, hs⟩
  · exact Iff.rfl

/-- Changing a job row without consequences for the accounting. -/
theorem good_updJob {id : Nat} {m : Job → Job} {k : Except Err Unit → Prog α} (hid : HasJob s id)
    (hm : ∀ ds r, Le s ds → Inv C H ds → ds.job? id = some r → JobOK (m r) ∧ (r.state ≠ .pending → (m r).state ≠ .pending) ∧
      (((m r).state = .pending ∨ (m r).state = .scheduled ∨ (m r).state = .running) ↔
        (r.state = .pending ∨ r.state = .scheduled ∨ r.state = .running)))
    (h : ∀ s', Le s s' → Good C H (k (.ok ())) T o s' post) : Good C H ((tx (updateJob' id m)).bind k) T o s post := by
  refine good_tx fun ds E hd hi he hu => .inr ?_
  obtain ⟨r, hr⟩ := hd.hasJob hid
  obtain ⟨h1, h2, h3⟩ := hm ds r hd hi hr
  have hup : Upd C ds (ds.setJob id (m r)) := upd_setJob hr ⟨rfl, rfl, rfl, rfl, h2, fun _ => h1⟩
  refine ⟨(), ds.setJob id (m r), T, o, E, ?_, List.Sublist.refl _,
    opok_same hi he hu hup (fun n => ?_) (fun n => Nat.le_refl _), h _ (hd.trans hup.le)⟩
  · unfold updateJob' updateJob; rw [hr]
  · rw [live_setJob hr]
    split
    · rename_i hn; subst hn
      rw [h3]
      constructor
      · intro hs; exact ⟨r, hr, hs⟩
      · rintro ⟨j, hj, hs⟩; rw [hr] at hj; cases hj; exact hs
    · exact Iff.rfl

/-- The parent token of a job. -/
structure ParentTok (s : DS) (j : Job) (o : List Ob) : Prop where
  top : j.parentID = 0 → o = []
  sub : j.parentID ≠ 0 → ∃ S, s.task? j.parentID = some S ∧ o = [.tok (tgt S)] ∧ Started s S.jobID

/-- Ending a job: its debts are cancelled, except the one to its parent. -/
theorem opok_kill {E : List Edge} {a b : DS} {J : Nat} {j : Job} (hi : Inv C H a) (he : InvE a E)
    (hu : ∀ n ∈ T, Calm.Unused a n) (hj : a.job? J = some j)
    (h : Upd C a b) (hl : ∀ n, n ≠ J → (Live b n ↔ Live a n)) (hd : ¬ Live b J) (hab : ∀ n, absorb b n ≤ absorb a n)
    (ho : ∀ x ∈ o, x.job = J) {o' : List Ob} (ho' : ParentTok a j o') :
    OpOK C H T T o o' E (E.filter fun e => decide (e.1.1 ≠ J)) a b [] := by
  have hE' : InvE b (E.filter fun e => decide (e.1.1 ≠ J)) := by
    refine he.upd h.le List.filter_sublist fun e hx => ?_
    have hx := List.mem_filter.1 hx
    exact (hl _ (of_decide_eq_true hx.2)).2 (he.live e hx.1)
  refine opok_upd hi hu h hE' (fun m hm => by cases hm) (fun K hK => .inr ?_) fun x => ?_
  · have : K = J := ho _ hK
    rw [this]; exact hd
  · rw [toksL_nil, List.append_nil]
    by_cases hx : x.1 = J
    · right; left
      rw [need_dead hE' (by rw [hx]; exact hd)]; omega
    · right; right
      have h1 : o.count (.tok x) = 0 := List.count_eq_zero.2 fun hm => hx (ho _ hm)
      have h2 : need b (E.filter fun e => decide (e.1.1 ≠ J)) x ≤ need a E x := by
        unfold need
        split
        · split
          · rename_i hh; rw [if_pos ((hl _ hx).1 hh)]; exact Nat.le_refl _
          · exact Nat.zero_le _
        · have hou : out (E.filter fun e => decide (e.1.1 ≠ J)) x = out E x := by
            unfold out
            rw [List.countP_filter]
            refine List.countP_congr fun e _ => ?_
            simp only [Bool.and_eq_true, decide_eq_true_eq]
            constructor
            · exact fun h => h.1
            · exact fun h => ⟨h, by rw [h]; exact hx⟩
          rw [hou]
          split
          · exact Nat.zero_le _
          · have := hab x.2; omega
      have h3 : inn E x ≤ inn (E.filter fun e => decide (e.1.1 ≠ J)) x + o'.count (.tok x) := by
        -- edges from J into x come from (J, 0)
        have hsplit : inn E x = inn (E.filter fun e => decide (e.1.1 ≠ J)) x + inn (E.filter fun e => !decide (e.1.1 ≠ J)) x := by
          unfold inn
          rw [List.countP_filter, List.countP_filter]
          clear he hE' h2
          induction E with
          | nil => rfl
          | cons e E ih =>
            rw [List.countP_cons, List.countP_cons, List.countP_cons, ih]
            by_cases h1 : e.2 = x <;> by_cases h2 : e.1.1 ≠ J <;> simp [h1, h2] <;> omega
        rw [hsplit]
        have hle : inn (E.filter fun e => !decide (e.1.1 ≠ J)) x ≤ o'.count (.tok x) := by
          have hsrc : ∀ e ∈ E, e.1.1 = J → e.2 = x → e.1 = (J, 0) := by
            intro e hm h4 h5
            by_cases h0 : e.1.2 = 0
            · exact Prod.ext h4 h0
            · obtain ⟨r, _, h6, h7⟩ := he.task e hm h0
              exfalso; apply hx
              rw [← h5, h7, ← h4]; exact h6
          by_cases hz : inn (E.filter fun e => !decide (e.1.1 ≠ J)) x = 0
          · omega
          · have hpos : 0 < (E.filter fun e => !decide (e.1.1 ≠ J)).countP fun e => decide (e.2 = x) := Nat.pos_of_ne_zero hz
            rw [List.countP_pos_iff] at hpos
            obtain ⟨e, hm, h5⟩ := hpos
            have hm := List.mem_filter.1 hm
            have h5 := of_decide_eq_true h5
            have h4 : e.1.1 = J := by simpa using hm.2
            have h6 := hsrc e hm.1 h4 h5
            have hone : inn (E.filter fun e => !decide (e.1.1 ≠ J)) x ≤ 1 := by
              refine Nat.le_trans ?_ (he.once J)
              unfold inn out
              rw [List.countP_filter]
              refine List.countP_mono_left fun e' hm' hb => ?_
              simp only [Bool.and_eq_true, decide_eq_true_eq] at hb
              exact decide_eq_true (hsrc e' hm' (by simpa using hb.2) hb.1)
            obtain ⟨j', S, k1, k2, k3, k4⟩ := he.job e hm.1 (by rw [h6])
            rw [h4, hj] at k1; cases k1
            obtain ⟨S', k5, k6, _⟩ := ho'.sub k2
            rw [k3] at k5; cases k5
            have : o'.count (.tok x) = 1 := by
              rw [k6, ← h5, k4]; simp
            omega
        omega
      omega

/-- An operation that may end a job: the job is ended unless it has not started. -/
theorem good_killJob {id : Nat} {m : Job → Except Err (γ × Job)} {k : Except Err γ → Prog α}
    (hid : HasJob s id) (ho : o = [] ∨ Started s id ∧ ∀ x ∈ o, x.job = id)
    (h : ∀ ds r, Le s ds → Inv C H ds → ds.job? id = some r →
      (∀ e, m r = .error e → r.state ≠ .scheduled ∧ r.state ≠ .running ∧ Good C H (k (.error e)) T [] ds post) ∧
      (∀ g u, m r = .ok (g, u) → u.position = r.position ∧ (r.state = .pending → u.state = .pending) ∧
        (r.state ≠ .pending → u.state ≠ .pending) ∧ JobState.proper u.state ∧ u.state ≠ .scheduled ∧ u.state ≠ .running ∧
        ∀ s' o', Le ds s' → ParentTok s' r o' → Good C H (k (.ok g)) T o' s' post)) :
    Good C H ((tx (updateJob id m)).bind k) T o s post := by
  refine good_step (op := DbOp.of (updateJob id m)) fun ds E hd hi he hu => ?_
  obtain ⟨r, hr⟩ := hd.hasJob hid
  obtain ⟨h1, h2⟩ := h ds r hd hi hr
  have hg := hi.jobs _ _ hr
  have hdead : Started s id → r.state ≠ .scheduled → r.state ≠ .running → ¬ Live ds id := by
    rintro hs k1 k2 ⟨j, hj, hst⟩
    rw [hr] at hj; cases hj
    obtain ⟨j', hj', hne⟩ := hd.started hs
    rw [hr] at hj'; cases hj'
    rcases hst with hst | hst | hst
    · exact hne hst
    · exact k1 hst
    · exact k2 hst
  cases hm : m r with
  | error e =>
    have hrun : (DbOp.of (updateJob id m)).run ds = (.error e, ds, []) := by
      apply run_of_err
      unfold updateJob; rw [hr]; dsimp only; rw [hm]
    obtain ⟨h3, h4, h5⟩ := h1 e hm
    refine ⟨_, _, _, T, [], E, hrun, List.Sublist.refl _, ?_, h5⟩
    rcases ho with ho | ⟨hs, ho⟩
    · rw [ho]; exact .refl hi he hu
    · have hdd := hdead hs h3 h4
      refine opok_upd hi hu (.refl ds) he (fun m hm => by cases hm) (fun J hJ => .inr ?_) fun x => ?_
      · have : J = id := ho _ hJ
        rw [this]; exact hdd
      · by_cases hx : x.1 = id
        · right; left; rw [need_dead he (by rw [hx]; exact hdd)]; omega
        · right; right
          have : o.count (.tok x) = 0 := List.count_eq_zero.2 fun hm => hx (ho _ hm)
          omega
  | ok y =>
    obtain ⟨g, u⟩ := y
    have hrun : (DbOp.of (updateJob id m)).run ds = (.ok g, ds.setJob id u, []) := by
      apply run_of_ok
      unfold updateJob; rw [hr]; dsimp only; rw [hm]
    obtain ⟨h3, h4, h5, h6, h7, h8, h9⟩ := h2 g u hm
    have hup : Upd C ds (ds.setJob id u) := by
      refine upd_setJob hr ⟨rfl, rfl, rfl, rfl, h5, fun hok => ⟨fun hs => ?_, fun hs => ?_, h6⟩⟩
      · show 1 ≤ u.position
        rw [h3]; exact hok.1 fun hp => hs (h4 hp)
      · show u.position = 0
        rw [h3]; exact hok.2.1 (Classical.byContradiction fun hp => h5 hp hs)
    have hpt : ∃ o', ParentTok ds r o' := by
      by_cases hp : r.parentID = 0
      · exact ⟨[], fun _ => rfl, fun hn => absurd hp hn⟩
      · obtain ⟨S, k1, k2, _⟩ := hg.parent hp
        exact ⟨[.tok (tgt S)], fun hz => absurd hz hp, fun _ => ⟨S, k1, rfl, k2⟩⟩
    obtain ⟨o', hpt⟩ := hpt
    have hpt' : ParentTok (ds.setJob id u) r o' := ⟨hpt.top, fun hn => by
      obtain ⟨S, k1, k2, k3⟩ := hpt.sub hn
      exact ⟨S, k1, k2, hup.le.started k3⟩⟩
    by_cases hpend : r.state = .pending
    · have ho : o = [] := by
        rcases ho with ho | ⟨hs, _⟩
        · exact ho
        · obtain ⟨j', hj', hne⟩ := hd.started hs
          rw [hr] at hj'; cases hj'
          exact absurd hpend hne
      have hlive : ∀ n, Live (ds.setJob id u) n ↔ Live ds n := by
        intro n
        rw [live_setJob hr]
        split
        · rename_i hn; subst hn
          constructor
          · intro _; exact ⟨r, hr, .inl hpend⟩
          · intro _; exact .inl (h4 hpend)
        · exact Iff.rfl
      refine ⟨_, _, _, T, o', E, hrun, List.Sublist.refl _, ?_, h9 _ o' hup.le hpt'⟩
      refine opok_upd hi hu hup (he.upd hup.le (List.Sublist.refl _) fun e hx => (hlive _).2 (he.live e hx))
        (fun m hm => by cases hm) (fun J hJ => by rw [ho] at hJ; cases hJ) fun x => .inr (.inr ?_)
      have := need_le (fun n => (hlive n).1) (fun x => Nat.le_refl (out E x)) (fun n => Nat.le_refl (absorb ds n)) x
      rw [ho, List.count_nil]
      have : need (ds.setJob id u) E x ≤ need ds E x := this
      omega
    · have hns := h5 hpend
      have hlive : ∀ n, n ≠ id → (Live (ds.setJob id u) n ↔ Live ds n) := by
        intro n hn; rw [live_setJob hr, if_neg hn]
      have hd' : ¬ Live (ds.setJob id u) id := by
        rw [live_setJob hr, if_pos rfl]
        rintro (h | h | h)
        · exact hns h
        · exact h7 h
        · exact h8 h
      exact ⟨_, _, _, T, o', _, hrun, List.Sublist.refl _,
        opok_kill hi he hu hr hup hlive hd' (fun n => Nat.le_refl _) (by
          rcases ho with ho | ⟨_, ho⟩
          · rw [ho]; exact fun _ h => by cases h
          · exact ho) hpt, h9 _ o' hup.le hpt'⟩

/-- An operation that makes a job live. -/
theorem good_wakeJob {id : Nat} {m : Job → Except Err (γ × Job)} {k : Except Err γ → Prog α} (hid : HasJob s id)
    (ho : o = [] ∨ o = [.tok (id, 0)])
    (h : ∀ ds r, Le s ds → Inv C H ds → ds.job? id = some r →
      (∀ e, m r = .error e → Good C H (k (.error e)) T o ds post) ∧
      (∀ g u, m r = .ok (g, u) → 1 ≤ u.position ∧ (u.state = .scheduled ∨ u.state = .running) ∧
        ∀ s', Le ds s' → Started s' id → Good C H (k (.ok g)) T [.tok (id, 0)] s' post)) :
    Good C H ((tx (updateJob id m)).bind k) T o s post := by
  refine good_tx fun ds E hd hi he hu => ?_
  obtain ⟨r, hr⟩ := hd.hasJob hid
  obtain ⟨h1, h2⟩ := h ds r hd hi hr
  cases hm : m r with
  | error e =>
    left
    refine ⟨e, ?_, h1 e hm⟩
    unfold updateJob; rw [hr]; dsimp only; rw [hm]
  | ok y =>
    right
    obtain ⟨g, u⟩ := y
    obtain ⟨h3, h4, h5⟩ := h2 g u hm
    have hne : u.state ≠ .pending := by rcases h4 with h | h <;> rw [h] <;> simp
    have hup : Upd C ds (ds.setJob id u) := by
      refine upd_setJob hr ⟨rfl, rfl, rfl, rfl, fun _ => hne, fun _ => ⟨fun _ => h3, fun hs => absurd hs hne, ?_⟩⟩
      show JobState.proper u.state
      rcases h4 with h | h <;> rw [h] <;> trivial
    have hlive : ∀ n, Live ds n → Live (ds.setJob id u) n := by
      intro n hn
      rw [live_setJob hr]
      split
      · exact .inr h4
      · exact hn
    have hE' := he.upd hup.le (List.Sublist.refl _) fun e hx => hlive _ (he.live e hx)
    refine ⟨g, ds.setJob id u, T, [.tok (id, 0)], E, ?_, List.Sublist.refl _, ?_, h5 _ hup.le ⟨persistJob r u, ?_, hne⟩⟩
    · unfold updateJob; rw [hr]; dsimp only; rw [hm]
    · refine opok_upd hi hu hup hE' (fun m hm => by cases hm) (fun J hJ => ?_) fun x => ?_
      · rcases ho with ho | ho <;> rw [ho] at hJ <;> simp at hJ
      · rw [toksL_nil, List.append_nil]
        by_cases hx : x = (id, 0)
        · right; left
          rw [hx]
          unfold need
          rw [if_pos rfl]
          split <;> simp
        · right; right
          have h6 : o.count (.tok x) = 0 := by
            rcases ho with ho | ho <;> rw [ho]
            · rfl
            · exact List.count_eq_zero.2 fun hm => hx (by simpa using hm)
          have h7 : need (ds.setJob id u) E x ≤ need ds E x := by
            unfold need
            split
            · rename_i h0
              have hxi : x.1 ≠ id := fun h => hx (Prod.ext h h0)
              split
              · rename_i hh
                rw [live_setJob hr, if_neg hxi] at hh
                rw [if_pos hh]; exact Nat.le_refl _
              · exact Nat.zero_le _
            · exact Nat.le_refl _
          omega
    · rw [job?_setJob, if_pos rfl, hr]; rfl

end Tork.Flow
