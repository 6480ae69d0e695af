import Verif.Safe
/-! Proof rules for the individual operations. -/

namespace Tork
open Prog

variable {rok : Nat → Prop} {α γ : Type}

theorem safe_db {f : DS → Except Err (γ × DS)} {k : Except Err γ → Prog α} {T T' : List Nat}
    (hT : T'.Sublist T) {G : Ghost} {post : List Nat → Ghost → α → Prop}
    (he : ∀ e, Safe rok (k (.error e)) T' G post)
    (ho : ∀ G1 ds, G.le G1 → Inv G1 ds → (∀ n ∈ T, Unused G1 ds n) → ∀ g ds', f ds = .ok (g, ds') →
      ∃ G2, OpEff rok T T' G1 G2 ds ds' [] ∧ Safe rok (k (.ok g)) T' G2 post) :
    Safe rok ((tx f).bind k) T G post := by
  refine ⟨T', hT, he, fun G1 ds hl hi hu => ⟨?_, by simp [DbOp.of]⟩⟩
  simp only [DbOp.of]
  cases hf : f ds with
  | error e => exact ⟨G1, OpEff.refl hi hT hu, by simp⟩
  | ok x =>
    obtain ⟨g, ds'⟩ := x
    obtain ⟨G2, h1, h2⟩ := ho G1 ds hl hi hu g ds' hf
    exact ⟨G2, h1, fun g' hg => by simp at hg; subst hg; exact h2⟩

theorem safe_pub {m : Msg} {k : Except Err Unit → Prog α} {T : List Nat} {G : Ghost}
    {post : List Nat → Ghost → α → Prop} (hm : MsgOK rok G m) (hs : m.startsJob = false)
    (hk : ∀ r, Safe rok (k r) T G post) : Safe rok ((publish m).bind k) T G post := by
  refine ⟨?_, fun G1 hl => hm.mono hl, fun r => ?_⟩
  · intro j hj hp; subst hj; simp [Msg.startsJob, hp] at hs
  · have : m.tokensAfter T = T := by
      unfold Msg.tokensAfter
      split
      · rename_i j; simp only [Msg.startsJob, decide_eq_false_iff_not] at hs; simp [hs]
      · rfl
    rw [this]; exact hk r

theorem safe_pub_start {j : Job} {k : Except Err Unit → Prog α} {T : List Nat} {G : Ghost}
    {post : List Nat → Ghost → α → Prop} (hm : MsgJob rok G j) (hs : j.id ∈ T)
    (hk : ∀ T' r, Safe rok (k r) T' G post) : Safe rok ((publish (.job j)).bind k) T G post := by
  refine ⟨?_, fun G1 hl => hm.mono hl, fun r => hk _ r⟩
  intro j' hj _; cases hj; exact hs

theorem safe_now {k : Nat → Prog α} {T : List Nat} {G : Ghost} {post : List Nat → Ghost → α → Prop}
    (hk : ∀ n, Safe rok (k n) T G post) : Safe rok (Prog.now.bind k) T G post := hk

theorem safe_seed {k : Nat → Prog α} {T : List Nat} {G : Ghost} {post : List Nat → Ghost → α → Prop}
    (hk : ∀ n, Safe rok (k n) T G post) : Safe rok (Prog.seed.bind k) T G post := hk

theorem safe_uuid {k : Nat → Prog α} {T : List Nat} {G : Ghost} {post : List Nat → Ghost → α → Prop}
    (hk : ∀ n, n ≠ 0 → n ∉ T → Safe rok (k n) (n :: T) G post) : Safe rok (Prog.newUUID.bind k) T G post := hk

theorem safe_ret {a : α} {T : List Nat} {G : Ghost} {post : List Nat → Ghost → α → Prop}
    (h : ∀ G', G.le G' → post T G' a) : Safe rok (.ret a) T G post := h

/-! ## Reads -/

theorem safe_read {f : DS → Except Err (γ × DS)} {k : Except Err γ → Prog α} {T : List Nat}
    {G : Ghost} {post : List Nat → Ghost → α → Prop}
    (hf : ∀ ds g ds', f ds = .ok (g, ds') → ds' = ds)
    (he : ∀ e, Safe rok (k (.error e)) T G post)
    (ho : ∀ G1 ds, G.le G1 → Inv G1 ds → ∀ g, f ds = .ok (g, ds) → Safe rok (k (.ok g)) T G1 post) :
    Safe rok ((tx f).bind k) T G post := by
  refine safe_db (List.Sublist.refl T) he fun G1 ds hl hi hu g ds' hfd => ?_
  have := hf ds g ds' hfd; subst this
  exact ⟨G1, OpEff.refl hi (List.Sublist.refl T) hu, ho G1 ds' hl hi g hfd⟩

theorem safe_getTaskS {id : Nat} {k : Except Err Task → Prog α} {T : List Nat} {G : Ghost}
    {post : List Nat → Ghost → α → Prop} (he : ∀ e, Safe rok (k (.error e)) T G post)
    (ho : ∀ G1 t, G.le G1 → TaskInv G1 t → t.id = id → (∀ n s, G1.st n = some s → StaticInv G1 n s) →
      Safe rok (k (.ok t)) T G1 post) :
    Safe rok ((tx (getTask id)).bind k) T G post := by
  refine safe_read ?_ he ?_
  · intro ds g ds' h; unfold getTask at h; split at h <;> simp_all
  · intro G1 ds hl hi g h
    unfold getTask at h
    split at h
    · simp at h
    · rename_i t ht; simp at h; subst h; exact ho G1 _ hl (hi.tasks _ _ ht) (task?_mem ht).2 hi.ghost

theorem safe_getTask {id : Nat} {k : Except Err Task → Prog α} {T : List Nat} {G : Ghost}
    {post : List Nat → Ghost → α → Prop} (he : ∀ e, Safe rok (k (.error e)) T G post)
    (ho : ∀ G1 t, G.le G1 → TaskInv G1 t → t.id = id → Safe rok (k (.ok t)) T G1 post) :
    Safe rok ((tx (getTask id)).bind k) T G post :=
  safe_getTaskS he fun G1 t h1 h2 h3 _ => ho G1 t h1 h2 h3

theorem safe_getNode {id : Nat} {k : Except Err Node → Prog α} {T : List Nat} {G : Ghost}
    {post : List Nat → Ghost → α → Prop} (he : ∀ e, Safe rok (k (.error e)) T G post)
    (ho : ∀ n : Node, isExclusiveQueue n.queue = true → Safe rok (k (.ok n)) T G post) :
    Safe rok ((tx (getNode id)).bind k) T G post := by
  refine safe_read ?_ he ?_
  · intro ds g ds' h; unfold getNode at h; split at h <;> simp_all
  · intro G1 ds hl hi g h
    unfold getNode at h
    split at h
    · simp at h
    · rename_i n hn
      simp at h
      subst h
      exact (ho _ (hi.nodes _ (List.mem_of_find?_eq_some hn))).le hl

theorem safe_getActive {id : Nat} {k : Except Err (List Task) → Prog α} {T : List Nat} {G : Ghost}
    {post : List Nat → Ghost → α → Prop} (he : ∀ e, Safe rok (k (.error e)) T G post)
    (ho : ∀ G1 ts, G.le G1 → (∀ t ∈ ts, TaskInv G1 t) → Safe rok (k (.ok ts)) T G1 post) :
    Safe rok ((tx (getActiveTasks id)).bind k) T G post := by
  refine safe_read ?_ he ?_
  · intro ds g ds' h; simp [getActiveTasks] at h; exact h.2.symm
  · intro G1 ds hl hi g h
    simp [getActiveTasks] at h
    refine ho G1 g hl ?_
    intro t ht
    rw [← h] at ht
    exact hi.tasks _ _ (task?_of_mem hi.keysT (List.mem_filter.1 ht).1)

/-- Record that a job is started with at least this position. -/
def Ghost.setPos (G : Ghost) (n p : Nat) (past : Prop := False) : Ghost :=
  { G with pos := fun m => if m = n then some (max p ((G.pos n).getD 0)) else G.pos m
           past := fun m => G.past m ∨ (m = n ∧ past) }

theorem Ghost.le_setPos (G : Ghost) (n p : Nat) (b : Prop) : G.le (G.setPos n p b) := by
  refine ⟨fun _ _ h => h, fun m q h => ?_, fun m h => .inl h, fun _ h => h, fun _ h => h, fun _ _ h => h, fun _ h => h⟩
  by_cases hm : m = n
  · subst hm
    refine ⟨max p ((G.pos m).getD 0), by simp [Ghost.setPos], ?_⟩
    rw [h]; exact Nat.le_max_right _ _
  · exact ⟨q, by simp [Ghost.setPos, hm, h], Nat.le_refl _⟩

theorem Ghost.atLeast_setPos (G : Ghost) (n p : Nat) (b : Prop) : (G.setPos n p b).atLeast n p :=
  ⟨max p ((G.pos n).getD 0), by simp [Ghost.setPos], Nat.le_max_left _ _⟩

theorem inv_setPos {G : Ghost} {ds : DS} (hi : Inv G ds) {n p : Nat} {j : Job} (hj : ds.job? n = some j)
    (hs : j.state ≠ .pending) (hp : p ≤ j.position) {b : Prop} (hb : b → j.tasks.length < j.position) :
    Inv (G.setPos n p b) ds := by
  have hl := G.le_setPos n p b
  refine ⟨fun id t h => (hi.tasks id t h).mono hl, fun id t h => (hi.jobs id t h).mono hl, ?_, ?_,
    fun m s h => (hi.ghost m s h).mono hl, hi.jpar, hi.rel, hi.nodes, hi.keysT, hi.keysJ⟩
  case refine_2 =>
    intro m hm
    rcases hm with hm | ⟨rfl, hm⟩
    · exact hi.past m hm
    · exact ⟨j, hj, hs, hb hm⟩
  intro m q hq
  by_cases hm : m = n
  · subst hm
    simp [Ghost.setPos] at hq
    refine ⟨j, hj, hs, ?_⟩
    cases ho : G.pos m with
    | none => rw [ho] at hq; simp at hq; omega
    | some q' =>
      obtain ⟨j', hj', _, hq'⟩ := hi.pos m q' ho
      rw [hj] at hj'; cases hj'
      rw [ho] at hq; simp at hq; omega
  · simp [Ghost.setPos, hm] at hq; exact hi.pos m q hq

/-- Record the parent task of a job and whether the job has completed. -/
def Ghost.know (G : Ghost) (n p : Nat) (done : Prop := False) : Ghost :=
  { G with jpar := fun m q => G.jpar m q ∨ (m = n ∧ q = p)
           subDone := fun m => G.subDone m ∨ (m = p ∧ done) }

theorem Ghost.le_know (G : Ghost) (n p : Nat) (d : Prop) : G.le (G.know n p d) :=
  ⟨fun _ _ h => h, fun _ p h => ⟨p, h, Nat.le_refl _⟩, fun _ h => h, fun _ h => h, fun _ h => .inl h,
   fun _ _ h => .inl h, fun _ h => h⟩

theorem inv_know {G : Ghost} {ds : DS} (hi : Inv G ds) {n : Nat} {j : Job} (hj : ds.job? n = some j) (d : Prop) :
    Inv (G.know n j.parentID d) ds := by
  have hl := G.le_know n j.parentID d
  refine ⟨fun id t h => (hi.tasks id t h).mono hl, fun id t h => (hi.jobs id t h).mono hl, hi.pos, hi.past,
    fun m s h => (hi.ghost m s h).mono hl, ?_, hi.rel, hi.nodes, hi.keysT, hi.keysJ⟩
  intro m p hp
  rcases hp with hp | ⟨rfl, rfl⟩
  · exact hi.jpar m p hp
  · exact ⟨j, hj, rfl⟩

theorem seen_know {G : Ghost} {ds : DS} {n : Nat} {j : Job} {d : Prop} (hj : ds.job? n = some j)
    (hd : d → j.state = .completed) : Seen G (G.know n j.parentID d) ds := by
  refine ⟨fun _ => .inl, fun m hm => ?_⟩
  rcases hm with hm | ⟨rfl, hm⟩
  · exact .inl hm
  · exact .inr ⟨n, j, hj, rfl, hd hm⟩

theorem joins_refl {G : Ghost} {ds ds' : DS} (h : ∀ id, ds'.task? id = ds.task? id) : Joins G ds ds' :=
  fun id a b h1 h2 h3 h4 => by rw [h, h1] at h2; cases h2; exact absurd h4 h3

theorem safe_getJobP {id : Nat} {k : Except Err Job → Prog α} {T : List Nat} {G : Ghost}
    {post : List Nat → Ghost → α → Prop} (he : ∀ e, Safe rok (k (.error e)) T G post)
    (ho : ∀ G1 j, G.le G1 → JobInv G1 j → j.id = id → (j.state ≠ .pending → G1.atLeast id j.position) →
      (∀ n s, G1.st n = some s → StaticInv G1 n s) → (G.started id → j.state ≠ .pending) →
      (j.state ≠ .pending → j.tasks.length < j.position → G1.past id) → G1.jpar id j.parentID →
      Safe rok (k (.ok j)) T G1 post) :
    Safe rok ((tx (getJob id)).bind k) T G post := by
  refine safe_db (List.Sublist.refl T) he fun G1 ds hl hi hu g ds' h => ?_
  unfold getJob at h
  split at h
  · simp at h
  · rename_i j hj
    simp at h
    obtain ⟨rfl, rfl⟩ := h
    have hst : G.started id → j.state ≠ .pending := by
      intro hs
      obtain ⟨p, hp⟩ := hs.mono hl
      obtain ⟨j', hj', hne, _⟩ := hi.pos _ _ hp
      rw [hj] at hj'; cases hj'; exact hne
    have hkl := G1.le_know id j.parentID False
    have hki := inv_know hi hj False
    have hks : Seen G1 (G1.know id j.parentID) ds := seen_know hj False.elim
    by_cases hs : j.state = .pending
    · exact ⟨_, ⟨hkl, fun n s h1 h2 => by rw [show (G1.know id j.parentID).st n = G1.st n from rfl, h1] at h2; simp at h2,
          hki, .refl _ _ (fun _ => rfl) (fun _ => rfl), by simp, fun n hn => ⟨(hu n hn).pend, (hu n hn).fresh⟩,
          hks, joins_refl fun _ => rfl⟩,
        ho _ _ (hl.trans hkl) (hki.jobs _ _ hj) (job?_mem hj).2 (fun h => absurd hs h) hki.ghost hst
          (fun h => absurd hs h) (.inr ⟨rfl, rfl⟩)⟩
    · have hle := hkl.trans ((G1.know id j.parentID).le_setPos id j.position (j.tasks.length < j.position))
      have hi' := inv_setPos hki hj hs (Nat.le_refl _) (b := j.tasks.length < j.position)
        (fun h => h)
      refine ⟨(G1.know id j.parentID).setPos id j.position (j.tasks.length < j.position), ⟨hle, fun n s h1 h2 => ?_, hi',
        .refl _ _ (fun _ => rfl) (fun _ => rfl), by simp, fun n hn => ⟨(hu n hn).pend, (hu n hn).fresh⟩,
        ⟨hks.full, hks.sub⟩, joins_refl fun _ => rfl⟩,
        ho _ _ (hl.trans hle) (hi'.jobs _ _ hj) (job?_mem hj).2 (fun _ => Ghost.atLeast_setPos _ _ _ _)
          hi'.ghost hst (fun _ h => .inr ⟨rfl, h⟩) (.inr ⟨rfl, rfl⟩)⟩
      simp [Ghost.setPos, Ghost.know] at h2; rw [h1] at h2; simp at h2

theorem safe_getJobS {id : Nat} {k : Except Err Job → Prog α} {T : List Nat} {G : Ghost}
    {post : List Nat → Ghost → α → Prop} (he : ∀ e, Safe rok (k (.error e)) T G post)
    (ho : ∀ G1 j, G.le G1 → JobInv G1 j → j.id = id → (j.state ≠ .pending → G1.atLeast id j.position) →
      (∀ n s, G1.st n = some s → StaticInv G1 n s) → (G.started id → j.state ≠ .pending) →
      (j.state ≠ .pending → j.tasks.length < j.position → G1.past id) → Safe rok (k (.ok j)) T G1 post) :
    Safe rok ((tx (getJob id)).bind k) T G post :=
  safe_getJobP he fun G1 j h1 h2 h3 h4 h5 h6 h7 _ => ho G1 j h1 h2 h3 h4 h5 h6 h7

theorem safe_getJob {id : Nat} {k : Except Err Job → Prog α} {T : List Nat} {G : Ghost}
    {post : List Nat → Ghost → α → Prop} (he : ∀ e, Safe rok (k (.error e)) T G post)
    (ho : ∀ G1 j, G.le G1 → JobInv G1 j → j.id = id → (j.state ≠ .pending → G1.atLeast id j.position) →
      Safe rok (k (.ok j)) T G1 post) :
    Safe rok ((tx (getJob id)).bind k) T G post :=
  safe_getJobS he fun G1 j h1 h2 h3 h4 _ _ _ => ho G1 j h1 h2 h3 h4

/-! ## Task updates -/

/-- An update of a task row that finishes nothing. -/
structure PlainUpd (G : Ghost) (r b : Task) : Prop where
  inv : TaskInv G b
  same : SameTask r b
  state : b.state = r.state ∨ TaskEdge r.composite r.state b.state
  count : b.count = r.count
  nodone : b.state = .completed → r.state = .completed

theorem TaskEdge.ne_created {c : Bool} {a b : TaskState} (h : TaskEdge c a b) : b ≠ .created := by
  cases h <;> simp

theorem PlainUpd.notCreated {G : Ghost} {r b : Task} (h : PlainUpd G r b) (hr : r.state ≠ .created) :
    b.state ≠ .created := by
  rcases h.state with h1 | h1
  · rw [h1]; exact hr
  · exact h1.ne_created

theorem keysInv_setTask {G : Ghost} {ds : DS} (hi : Inv G ds) {id : Nat} {r u : Task}
    (hr : ds.task? id = some r) (hp : PlainUpd G r (persistTask r u)) : Inv G (ds.setTask id u) := by
  have hb := hp.inv
  refine ⟨?_, hi.jobs, hi.pos, hi.past, hi.ghost, hi.jpar, ?_, hi.nodes, by rw [keys_setTask]; exact hi.keysT, hi.keysJ⟩
  case refine_2 =>
    intro n hn
    obtain ⟨t, ht, hs⟩ := hi.rel n hn
    rw [task?_setTask]
    by_cases hk : n = id
    · subst hk; rw [hr] at ht; cases ht; exact ⟨_, by simp [hr], hp.notCreated hs⟩
    · exact ⟨t, by simp [hk, ht], hs⟩
  intro k t ht
  rw [task?_setTask] at ht
  by_cases hk : k = id
  · subst hk; simp [hr] at ht; subst ht; exact hb
  · simp [hk] at ht; exact hi.tasks k t ht

theorem eff_setTask {T : List Nat} {G : Ghost} {ds : DS} {id : Nat} {r u : Task}
    (hr : ds.task? id = some r) (hb : PlainUpd G r (persistTask r u)) : Eff rok T ds (ds.setTask id u) := by
  have hget : ∀ k a, ds.task? k = some a → (ds.setTask id u).task? k =
      some (if k = id then persistTask r u else a) := by
    intro k a ha
    rw [task?_setTask]
    by_cases hk : k = id
    · subst hk; rw [hr] at ha; cases ha; simp [hr]
    · simp [hk, ha]
  refine ⟨?_, ?_, fun k a ha => ⟨a, ha, SameJob.refl a, .inl rfl⟩, fun k b h1 h2 => ?_, ?_, ?_, ?_,
    fun k a b h1 h2 h3 => ?_, fun k a b h1 h2 h3 h4 => ?_⟩
  · intro k a ha
    refine ⟨_, hget k a ha, ?_⟩
    by_cases hk : k = id
    · subst hk; rw [hr] at ha; cases ha; simp only [if_true]; exact ⟨hb.same, hb.state⟩
    · rw [if_neg hk]; exact ⟨SameTask.refl a, .inl rfl⟩
  · intro k b h1 h2
    rw [task?_setTask, h1] at h2; simp at h2
  · rw [job?_setTask, h1] at h2; simp at h2
  · intro k a b h1 h2 h3; rw [job?_setTask, h1] at h2; cases h2; exact absurd rfl h3
  · intro k a b h1 h2 h3
    rw [hget k a h1] at h2
    by_cases hk : k = id
    · subst hk; rw [hr] at h1; cases h1; simp at h2; subst h2; exact absurd hb.count h3
    · simp [hk] at h2; subst h2; exact absurd rfl h3
  · intro k a b h1 h2 h3 h4
    rw [hget k a h1] at h2
    by_cases hk : k = id
    · subst hk; rw [hr] at h1; cases h1; simp at h2; subst h2; exact absurd (hb.nodone h4) h3
    · simp [hk] at h2; subst h2; exact absurd h4 h3
  · rw [job?_setTask, h1] at h2; cases h2; exact absurd rfl h3
  · rw [hget k a h1] at h2
    by_cases hk : k = id
    · subst hk; rw [hr] at h1; cases h1; simp at h2; subst h2; exact absurd (hb.nodone h4) h3
    · simp [hk] at h2; subst h2; exact absurd h4 h3

theorem joins_setTask {G G' : Ghost} {ds : DS} {id : Nat} {r u : Task}
    (hr : ds.task? id = some r) (hb : PlainUpd G r (persistTask r u)) : Joins G' ds (ds.setTask id u) := by
  intro k a b h1 h2 h3 h4
  rw [task?_setTask] at h2
  by_cases hk : k = id
  · subst hk; rw [hr] at h1; cases h1; simp [hr] at h2; subst h2; exact absurd (hb.nodone h4) h3
  · simp [hk, h1] at h2; subst h2; exact absurd h4 h3

theorem safe_updTask {id : Nat} {m : Task → Task} {k : Except Err Unit → Prog α} {T : List Nat}
    {G : Ghost} {post : List Nat → Ghost → α → Prop}
    (hm : ∀ G1 r, G.le G1 → TaskInv G1 r → r.id = id → PlainUpd G1 r (persistTask r (m r)))
    (hk : ∀ r, Safe rok (k r) T G post) :
    Safe rok ((tx (updateTask' id m)).bind k) T G post := by
  refine safe_db (List.Sublist.refl T) (fun e => hk _) fun G1 ds hl hi hu g ds' h => ?_
  unfold updateTask' updateTask at h
  split at h
  · simp at h
  · rename_i r hr
    simp at h
    obtain ⟨_, rfl⟩ := h
    have hp := hm G1 r hl (hi.tasks _ _ hr) (task?_mem hr).2
    exact ⟨G1, ⟨.refl _, fun n s h1 h2 => by rw [h1] at h2; simp at h2, keysInv_setTask hi hr hp,
      eff_setTask hr hp, by simp, fun n hn => ⟨(hu n hn).pend, (hu n hn).fresh⟩, .refl _ _,
      joins_setTask hr hp⟩, (hk _).le hl⟩

/-! ## Job updates -/

/-- An update of a job row that neither starts it nor moves its position. -/
structure PlainJob (rok : Prop) (j b : Job) : Prop where
  same : SameJob j b
  state : b.state = j.state ∨ (j.state ≠ .pending ∧ JobEdge rok j.state b.state)
  pos : b.position = j.position
  context : b.context = j.context

theorem JobEdge.ne_pending {rok : Prop} {a b : JobState} (h : JobEdge rok a b) : b ≠ .pending := by
  cases h <;> simp

theorem inv_setJob {G : Ghost} {ds : DS} (hi : Inv G ds) {id : Nat} {r u : Job}
    (hr : ds.job? id = some r) (hb : JobInv G (persistJob r u))
    (hpend : r.state ≠ .pending → (persistJob r u).state ≠ .pending)
    (hpos : r.state ≠ .pending → r.position ≤ (persistJob r u).position) : Inv G (ds.setJob id u) := by
  refine ⟨hi.tasks, ?_, ?_, ?_, hi.ghost, ?_, hi.rel, hi.nodes, hi.keysT, by rw [keys_setJob]; exact hi.keysJ⟩
  · intro k t ht
    rw [job?_setJob] at ht
    by_cases hk : k = id
    · subst hk; simp [hr] at ht; subst ht; exact hb
    · simp [hk] at ht; exact hi.jobs k t ht
  · intro n p hp
    obtain ⟨j, hj, hs, hle⟩ := hi.pos n p hp
    rw [job?_setJob]
    by_cases hk : n = id
    · subst hk; rw [hr] at hj; cases hj
      exact ⟨_, by simp [hr], hpend hs, Nat.le_trans hle (hpos hs)⟩
    · exact ⟨j, by simp [hk, hj], hs, hle⟩
  · intro n hp
    obtain ⟨j, hj, hs, hle⟩ := hi.past n hp
    rw [job?_setJob]
    by_cases hk : n = id
    · subst hk; rw [hr] at hj; cases hj
      exact ⟨_, by simp [hr], hpend hs, Nat.lt_of_lt_of_le hle (hpos hs)⟩
    · exact ⟨j, by simp [hk, hj], hs, hle⟩
  · intro n p hp
    obtain ⟨j, hj, hpp⟩ := hi.jpar n p hp
    rw [job?_setJob]
    by_cases hk : n = id
    · subst hk; rw [hr] at hj; cases hj
      exact ⟨persistJob r u, by simp [hr], hpp⟩
    · exact ⟨j, by simp [hk, hj], hpp⟩

theorem eff_setJob {T : List Nat} {ds : DS} {id : Nat} {r u : Job} (hr : ds.job? id = some r)
    (hb : PlainJob (rok id) r (persistJob r u)) : Eff rok T ds (ds.setJob id u) := by
  have hget : ∀ k a, ds.job? k = some a → (ds.setJob id u).job? k =
      some (if k = id then persistJob r u else a) := by
    intro k a ha
    rw [job?_setJob]
    by_cases hk : k = id
    · subst hk; rw [hr] at ha; cases ha; simp [hr]
    · simp [hk, ha]
  refine ⟨fun k a ha => ⟨a, ha, SameTask.refl a, .inl rfl⟩, fun k b h1 h2 => ?_, ?_, ?_, ?_, ?_, ?_, ?_, ?_⟩
  · rw [task?_setJob, h1] at h2; simp at h2
  · intro k a ha
    refine ⟨_, hget k a ha, ?_⟩
    by_cases hk : k = id
    · subst hk; rw [hr] at ha; cases ha; simp only [if_true]
      exact ⟨hb.same, hb.state.imp id fun h => .inl h⟩
    · simp only [hk, if_false]; exact ⟨SameJob.refl a, .inl rfl⟩
  · intro k b h1 h2
    rw [job?_setJob, h1] at h2; simp at h2
  · intro k a b h1 h2 h3
    rw [hget k a h1] at h2
    by_cases hk : k = id
    · subst hk; rw [hr] at h1; cases h1; simp at h2; subst h2; exact absurd hb.pos h3
    · simp [hk] at h2; subst h2; exact absurd rfl h3
  · intro k a b h1 h2 h3; rw [task?_setJob, h1] at h2; cases h2; exact absurd rfl h3
  · intro k a b h1 h2 h3 h4; rw [task?_setJob, h1] at h2; cases h2; exact absurd h4 h3
  · intro k a b h1 h2 h3
    rw [hget k a h1] at h2
    by_cases hk : k = id
    · subst hk; rw [hr] at h1; cases h1; simp at h2; subst h2; exact absurd hb.context h3
    · simp [hk] at h2; subst h2; exact absurd rfl h3
  · intro k a b h1 h2 h3 h4; rw [task?_setJob, h1] at h2; cases h2; exact absurd h4 h3

theorem unused_setJob {G : Ghost} {ds : DS} {id n : Nat} {r u : Job} (hr : ds.job? id = some r)
    (hu : Unused G ds n) (hp : r.state = .pending → (persistJob r u).state = .pending) :
    Unused G (ds.setJob id u) n := by
  refine ⟨fun j hj => ?_, hu.fresh⟩
  rw [job?_setJob] at hj
  by_cases hk : n = id
  · subst hk; simp [hr] at hj; subst hj; exact hp (hu.pend r hr)
  · simp [hk] at hj; exact hu.pend j hj

theorem safe_updJob {id : Nat} {m : Job → Except Err (γ × Job)} {k : Except Err γ → Prog α}
    {T : List Nat} {G : Ghost} {post : List Nat → Ghost → α → Prop}
    (hm : ∀ G1 r g u, G.le G1 → JobInv G1 r → r.id = id → (G1.past id → r.tasks.length < r.position) →
      m r = .ok (g, u) → PlainJob (rok id) r (persistJob r u) ∧ JobInv G1 (persistJob r u))
    (he : ∀ e, Safe rok (k (.error e)) T G post)
    (ho : ∀ G1 r g u, G.le G1 → JobInv G1 r → r.id = id → m r = .ok (g, u) →
      (u.state = .completed → G1.subDone r.parentID) → (∀ p, G.jpar id p → r.parentID = p) →
      Safe rok (k (.ok g)) T G1 post) :
    Safe rok ((tx (updateJob id m)).bind k) T G post := by
  refine safe_db (List.Sublist.refl T) he fun G1 ds hl hi hu g ds' h => ?_
  unfold updateJob at h
  split at h
  · simp at h
  · rename_i r hr
    split at h
    · simp at h
    · rename_i g' u hmu
      simp at h
      obtain ⟨rfl, rfl⟩ := h
      obtain ⟨hp, hj⟩ := hm G1 r _ u hl (hi.jobs _ _ hr) (job?_mem hr).2 (fun h => by
        obtain ⟨j', h1, _, h2⟩ := hi.past _ h; rw [hr] at h1; cases h1; exact h2) hmu
      have hpe : r.state = .pending → (persistJob r u).state = .pending := by
        intro h; rcases hp.state with h1 | h1
        · rw [h1, h]
        · exact absurd h h1.1
      have hne : r.state ≠ .pending → (persistJob r u).state ≠ .pending := by
        intro h; rcases hp.state with h1 | h1
        · rw [h1]; exact h
        · exact h1.2.ne_pending
      have hi' := inv_setJob hi hr hj hne (fun _ => by rw [hp.pos]; exact Nat.le_refl _)
      have hr' : (ds.setJob id u).job? id = some (persistJob r u) := by rw [job?_setJob]; simp [hr]
      have hkl := G1.le_know id r.parentID (u.state = .completed)
      have hri := (hi.jobs _ _ hr).mono hkl
      refine ⟨G1.know id r.parentID (u.state = .completed), ⟨hkl, fun n s h1 h2 => ?_,
        inv_know hi' hr' _, eff_setJob hr hp, by simp, fun n hn => ?_, seen_know (j := persistJob r u) hr' (fun h => h), joins_refl fun _ => rfl⟩,
        ho _ r _ u (hl.trans hkl) hri (job?_mem hr).2 hmu (fun h => .inr ⟨rfl, h⟩) ?_⟩
      · rw [show (G1.know id r.parentID _).st n = G1.st n from rfl, h1] at h2; simp at h2
      · have := unused_setJob (u := u) hr (hu n hn) hpe
        exact ⟨this.pend, this.fresh⟩
      · intro p hpp
        obtain ⟨j', h1, h2⟩ := hi.jpar _ _ (hl.jpar _ _ hpp)
        rw [hr] at h1; cases h1; exact h2

theorem safe_updJob' {id : Nat} {m : Job → Job} {k : Except Err Unit → Prog α}
    {T : List Nat} {G : Ghost} {post : List Nat → Ghost → α → Prop}
    (hm : ∀ G1 r, G.le G1 → JobInv G1 r → r.id = id →
      PlainJob (rok id) r (persistJob r (m r)) ∧ JobInv G1 (persistJob r (m r)))
    (hk : ∀ r, Safe rok (k r) T G post) :
    Safe rok ((tx (updateJob' id m)).bind k) T G post := by
  refine safe_updJob (m := fun u => .ok ((), m u)) ?_ (fun e => hk _) ?_
  · intro G1 r g u hl hi hid _ h; simp at h; rw [← h]; exact hm G1 r hl hi hid
  · intro G1 r g u hl _ _ _ _ _; exact (hk _).le hl

/-- Starting a job consumes its token. -/
theorem safe_start {id n : Nat} {k : Except Err Unit → Prog α}
    {T : List Nat} {G : Ghost} {post : List Nat → Ghost → α → Prop} (hid : id ∈ T)
    (he : ∀ e, Safe rok (k (.error e)) (T.filter (· ≠ id)) G post)
    (ho : ∀ G1, G.le G1 → G1.atLeast id 1 → Safe rok (k (.ok ())) (T.filter (· ≠ id)) G1 post) :
    Safe rok ((tx (updateJob' id (startJobRow n))).bind k) T G post := by
  refine safe_db List.filter_sublist he fun G1 ds hl hi hu g ds' h => ?_
  unfold updateJob' updateJob at h
  split at h
  · simp at h
  · rename_i r hr
    simp at h
    subst h
    have hrp := (hu id hid).pend r hr
    have hi1 : Inv G1 (ds.setJob id (startJobRow n r)) := by
      refine inv_setJob hi hr ?_ (fun h => absurd hrp h) (fun h => absurd hrp h)
      have := hi.jobs _ _ hr
      exact ⟨this.tasks, this.parent, fun h => by simp [persistJob, startJobRow] at h,
        fun h => by simp [persistJob, startJobRow] at h, fun _ => by simp [persistJob, startJobRow]⟩
    have hj' : (ds.setJob id (startJobRow n r)).job? id = some (persistJob r (startJobRow n r)) := by
      rw [job?_setJob]; simp [hr]
    have hle := G1.le_setPos id 1 False
    refine ⟨G1.setPos id 1, ⟨hle, fun n s h1 h2 => ?_, inv_setPos hi1 hj' (by simp [persistJob, startJobRow])
      (by simp [persistJob, startJobRow]) (b := False) False.elim, ?_, by simp, ?_, ⟨fun _ => .inl, fun _ => .inl⟩,
      joins_refl fun _ => rfl⟩, ho _ (hl.trans hle) (Ghost.atLeast_setPos _ _ _ _)⟩
    · simp [Ghost.setPos] at h2; rw [h1] at h2; simp at h2
    · have hget : ∀ k a, ds.job? k = some a → (ds.setJob id (startJobRow n r)).job? k =
          some (if k = id then persistJob r (startJobRow n r) else a) := by
        intro k a ha
        rw [job?_setJob]
        by_cases hk : k = id
        · subst hk; rw [hr] at ha; cases ha; simp [hr]
        · simp [hk, ha]
      refine ⟨fun k a ha => ⟨a, ha, SameTask.refl a, .inl rfl⟩, fun k b h1 h2 => ?_, ?_, ?_, ?_, ?_, ?_, ?_, ?_⟩
      · rw [task?_setJob, h1] at h2; simp at h2
      · intro k a ha
        refine ⟨_, hget k a ha, ?_⟩
        by_cases hk : k = id
        · subst hk; rw [hr] at ha; cases ha; simp only [if_true]
          exact ⟨rfl, .inr (.inr ⟨hid, rfl, rfl⟩)⟩
        · simp only [hk, if_false]; exact ⟨SameJob.refl a, .inl rfl⟩
      · intro k b h1 h2
        rw [job?_setJob, h1] at h2; simp at h2
      · intro k a b h1 h2 h3
        rw [hget k a h1] at h2
        by_cases hk : k = id
        · subst hk; simp at h2; subst h2; rw [hr] at h1; cases h1; exact .inl ⟨hid, rfl, rfl, rfl⟩
        · simp [hk] at h2; subst h2; exact absurd rfl h3
      · intro k a b h1 h2 h3; rw [task?_setJob, h1] at h2; cases h2; exact absurd rfl h3
      · intro k a b h1 h2 h3 h4; rw [task?_setJob, h1] at h2; cases h2; exact absurd h4 h3
      · intro k a b h1 h2 h3
        rw [hget k a h1] at h2
        by_cases hk : k = id
        · subst hk; rw [hr] at h1; cases h1; simp at h2; subst h2; exact absurd rfl h3
        · simp [hk] at h2; subst h2; exact absurd rfl h3
      · intro k a b h1 h2 h3 h4; rw [task?_setJob, h1] at h2; cases h2; exact absurd h4 h3
    · intro m hm
      have hmm := List.mem_filter.1 hm
      have hne : m ≠ id := by simpa using hmm.2
      refine ⟨fun j hj => ?_, (hu m hmm.1).fresh⟩
      rw [job?_setJob] at hj; simp [hne] at hj
      exact (hu m hmm.1).pend j hj

/-! ## Creation -/

/-- What must be known about a task about to be created. -/
structure NewTask (G : Ghost) (t : Task) : Prop where
  id : t.id ≠ 0
  parent : t.parentID ≠ 0 → ∃ sp, G.st t.parentID = some sp ∧ sp.jobID = t.jobID ∧ G.rel t.parentID
  pos : t.parentID = 0 → t.position ≤ 1 ∨ G.atLeast t.jobID t.position
  retry : t.RetryOK
  nested : t.Nested
  node : t.nodeID ≠ 0 → G.started t.jobID ∧ t.state ≠ .created
  state : t.state = .pending ∨ t.state = .created ∨ t.state = .failed
  count : t.count = 0

theorem NewTask.mono {G G' : Ghost} {t : Task} (h : NewTask G t) (hl : G.le G') : NewTask G' t :=
  ⟨h.id, fun hp => by obtain ⟨sp, h1, h2, h3⟩ := h.parent hp; exact ⟨sp, hl.st _ _ h1, h2, hl.rel _ h3⟩,
   fun hp => (h.pos hp).imp (fun x => x) fun h => h.mono hl, h.retry, h.nested,
   fun hn => ⟨(h.node hn).1.mono hl, (h.node hn).2⟩, h.state, h.count⟩

def Ghost.setSt (G : Ghost) (n : Nat) (s : Static) (d : Prop) : Ghost :=
  { G with st := fun m => if m = n then some s else G.st m
           rel := fun m => G.rel m ∨ (m = n ∧ d) }

theorem Ghost.le_setSt {G : Ghost} {n : Nat} {s : Static} (d : Prop) (h : G.st n = none) : G.le (G.setSt n s d) := by
  refine ⟨fun m s' hm => ?_, fun m p hm => ⟨p, hm, Nat.le_refl _⟩, fun _ h => h, fun _ h => h, fun _ h => h,
    fun _ _ h => h, fun _ h => .inl h⟩
  by_cases hmn : m = n
  · subst hmn; rw [h] at hm; simp at hm
  · simp [Ghost.setSt, hmn, hm]

@[simp] theorem taskRow_id (t : Task) : (taskRow t).id = t.id := rfl
@[simp] theorem taskRow_static (t : Task) : (taskRow t).static = t.static := rfl
@[simp] theorem taskRow_count (t : Task) : (taskRow t).count = t.count := rfl

theorem safe_createTask {t : Task} {k : Except Err Unit → Prog α} {T : List Nat} {G : Ghost}
    {post : List Nat → Ghost → α → Prop} (hid : t.id ∈ T) (hn : NewTask G t)
    (he : ∀ e, Safe rok (k (.error e)) (T.filter (· ≠ t.id)) G post)
    (ho : ∀ G1, G.le G1 → G1.st t.id = some t.static → (t.state ≠ .created → G1.rel t.id) →
      Safe rok (k (.ok ())) (T.filter (· ≠ t.id)) G1 post) :
    Safe rok ((tx (createTask t)).bind k) T G post := by
  refine safe_db List.filter_sublist he fun G1 ds hl hi hu g ds' h => ?_
  unfold createTask at h
  split at h
  · simp at h
  · rename_i h1
    split at h
    · simp at h
    · split at h
      · simp at h
      · simp at h
        subst h
        have hn := hn.mono hl
        have hnone : ds.task? t.id = none := by simpa using h1
        have hfr := (hu _ hid).fresh
        have hle := Ghost.le_setSt (s := t.static) (t.state ≠ .created) hfr
        have hst : (G1.setSt t.id t.static (t.state ≠ .created)).st t.id = some t.static := by simp [Ghost.setSt]
        have hrel : t.state ≠ .created → (G1.setSt t.id t.static (t.state ≠ .created)).rel t.id :=
          fun h => .inr ⟨rfl, h⟩
        have hself : t.parentID ≠ t.id := by
          intro hc
          by_cases h0 : t.parentID = 0
          · exact hn.id (by rw [← hc, h0])
          · obtain ⟨sp, h2, _⟩ := hn.parent h0
            rw [hc, hfr] at h2; simp at h2
        have hinv : TaskInv (G1.setSt t.id t.static (t.state ≠ .created)) (taskRow t) :=
          ⟨hst, hn.retry, ⟨hn.nested.par, hn.nested.ea, hn.nested.sub⟩,
            (by decide : (0 : Rat) ≤ 0 ∧ (0 : Rat) ≤ 100),
            fun h => ⟨(hn.node h).1.mono hle, hrel (hn.node h).2⟩, fun _ => hn.count⟩
        refine ⟨G1.setSt t.id t.static (t.state ≠ .created), ⟨hle, ?_, ?_, ?_, by simp, ?_, ⟨fun _ => .inl, fun _ => .inl⟩, ?_⟩, ho _ (hl.trans hle) hst hrel⟩
        · intro n s h2 h3
          by_cases hnt : n = t.id
          · rw [hnt]; exact hid
          · simp [Ghost.setSt, hnt, h2] at h3
        · refine ⟨?_, fun id j hj => (hi.jobs id j hj).mono hle, hi.pos, hi.past, ?_, hi.jpar, ?_, hi.nodes, ?_, hi.keysJ⟩
          · intro id r hr
            rw [task?_append] at hr
            cases hold : ds.task? id with
            | some r' => rw [hold] at hr; simp at hr; subst hr; exact (hi.tasks id _ hold).mono hle
            | none =>
              rw [hold, Option.none_or] at hr
              by_cases hc : (taskRow t).id = id
              · rw [if_pos hc] at hr; cases hr; exact hinv
              · rw [if_neg hc] at hr; simp at hr
          · intro n s hns
            by_cases hnt : n = t.id
            · subst hnt
              rw [hst] at hns; cases hns
              refine ⟨hn.id, hself, ?_, ?_⟩
              · intro hp
                obtain ⟨sp, h2, h3, h4⟩ := hn.parent hp
                exact ⟨sp, hle.st _ _ h2, h3, hle.rel _ h4⟩
              · intro hp; exact (hn.pos hp).imp id fun h => h.mono hle
            · simp [Ghost.setSt, hnt] at hns
              exact (hi.ghost n s hns).mono hle
          · rintro n (hnr | ⟨rfl, hnr⟩)
            · obtain ⟨r, hr, hrs⟩ := hi.rel n hnr
              exact ⟨r, by rw [task?_append, hr]; rfl, hrs⟩
            · exact ⟨taskRow t, by rw [task?_append, hnone, Option.none_or]; exact if_pos rfl, hnr⟩
          · simp only [List.map_append, List.map_cons, List.map_nil, taskRow_id]
            rw [List.nodup_append]
            refine ⟨hi.keysT, by simp, ?_⟩
            intro a ha b hb
            simp at hb
            subst hb
            intro hc
            subst hc
            obtain ⟨r, hr, hrid⟩ := List.mem_map.1 ha
            have := task?_of_mem hi.keysT hr
            have hrid : r.id = t.id := hrid
            rw [hrid, hnone] at this
            simp at this
        · have hget : ∀ k a, ds.task? k = some a →
              DS.task? { ds with tasks := ds.tasks ++ [taskRow t] } k = some a := by
            intro k a ha; rw [task?_append, ha]; rfl
          refine ⟨fun k a ha => ⟨a, hget k a ha, SameTask.refl a, .inl rfl⟩, ?_,
            fun k a ha => ⟨a, ha, SameJob.refl a, .inl rfl⟩, ?_, ?_, ?_, ?_, ?_, ?_⟩
          · intro k b h2 h3
            rw [task?_append, h2, Option.none_or] at h3
            by_cases hc : (taskRow t).id = k
            · rw [if_pos hc] at h3; cases h3; exact ⟨hn.state, hn.count⟩
            · rw [if_neg hc] at h3; simp at h3
          · intro k b h2 h3
            have : ds.job? k = some b := h3
            rw [h2] at this; simp at this
          · intro k a b h2 h3 h4
            have : ds.job? k = some b := h3
            rw [h2] at this; cases this; exact absurd rfl h4
          · intro k a b h2 h3 h4
            rw [hget k a h2] at h3; cases h3; exact absurd rfl h4
          · intro k a b h2 h3 h4 h5
            rw [hget k a h2] at h3; cases h3; exact absurd h5 h4
          · intro k a b h2 h3 h4
            have : ds.job? k = some b := h3
            rw [h2] at this; cases this; exact absurd rfl h4
          · intro k a b h2 h3 h4 h5
            rw [hget k a h2] at h3; cases h3; exact absurd h5 h4
        · intro n hnn
          have hmm := List.mem_filter.1 hnn
          have hne : n ≠ t.id := by simpa using hmm.2
          exact ⟨(hu n hmm.1).pend, by simp [Ghost.setSt, hne, (hu n hmm.1).fresh]⟩
        · intro k a b h2 h3 h4 h5
          have : DS.task? { ds with tasks := ds.tasks ++ [taskRow t] } k = some a := by
            rw [task?_append, h2]; rfl
          rw [this] at h3; cases h3; exact absurd h5 h4

theorem safe_createJob {j : Job} {k : Except Err Unit → Prog α} {T : List Nat} {G : Ghost}
    {post : List Nat → Ghost → α → Prop} (hid : j.id ∈ T) (hs : j.state = .pending) (hp : j.position = 0) (hc : j.context.tasks = [])
    (ht : ∀ t ∈ j.tasks, t.Fresh) (hpar : ParentOK G j.parentID)
    (hk : ∀ r, Safe rok (k r) T G post) :
    Safe rok ((tx (createJob j)).bind k) T G post := by
  refine safe_db (List.Sublist.refl T) (fun e => hk _) fun G1 ds hl hi hu g ds' h => ?_
  unfold createJob at h
  split at h
  · simp at h
  · split at h
    · simp at h
    · rename_i h0 h1
      simp at h
      subst h
      have hnone : ds.job? j.id = none := by simpa using h1
      have hget : ∀ k a, ds.job? k = some a →
          DS.job? { ds with jobs := ds.jobs ++ [jobRow ds.guest j] } k = some a := by
        intro k a ha; rw [job?_append, ha]; rfl
      have hnew : ∀ k b, ds.job? k = none →
          DS.job? { ds with jobs := ds.jobs ++ [jobRow ds.guest j] } k = some b →
          k = j.id ∧ b = jobRow ds.guest j := by
        intro k b h2 h3
        rw [job?_append, h2] at h3
        simp at h3
        exact ⟨h3.1.symm, h3.2.symm⟩
      refine ⟨G1, ⟨.refl _, fun n s h1 h2 => by rw [h1] at h2; simp at h2, ?_, ?_, by simp, ?_, .refl _ _,
        joins_refl fun _ => rfl⟩, (hk _).le hl⟩
      · refine ⟨hi.tasks, ?_, ?_, ?_, hi.ghost, ?_, hi.rel, hi.nodes, hi.keysT, ?_⟩
        · intro id r hr
          cases hold : ds.job? id with
          | some r' => rw [hget id _ hold] at hr; cases hr; exact hi.jobs id _ hold
          | none =>
            obtain ⟨_, rfl⟩ := hnew id r hold hr
            exact ⟨ht, hpar.mono hl, fun _ => hp, fun h => by
              have h : j.state = .completed := h
              rw [hs] at h; simp at h, fun h => absurd hs h⟩
        · intro n p hnp
          obtain ⟨j', hj', h2⟩ := hi.pos n p hnp
          exact ⟨j', hget n j' hj', h2⟩
        · intro n hnp
          obtain ⟨j', hj', h2⟩ := hi.past n hnp
          exact ⟨j', hget n j' hj', h2⟩
        · intro n p hnp
          obtain ⟨j', hj', h2⟩ := hi.jpar n p hnp
          exact ⟨j', hget n j' hj', h2⟩
        · simp only [List.map_append, List.map_cons, List.map_nil]
          rw [List.nodup_append]
          refine ⟨hi.keysJ, by simp, ?_⟩
          intro a ha b hb
          simp at hb
          subst hb
          intro hc
          subst hc
          obtain ⟨r, hr, hrid⟩ := List.mem_map.1 ha
          have := job?_of_mem hi.keysJ hr
          have hrid : r.id = j.id := hrid
          rw [hrid, hnone] at this
          simp at this
      · refine ⟨fun k a ha => ⟨a, ha, SameTask.refl a, .inl rfl⟩, ?_,
            fun k a ha => ⟨a, hget k a ha, SameJob.refl a, .inl rfl⟩, ?_, ?_, ?_, ?_, ?_, ?_⟩
        · intro k b h2 h3
          have : ds.task? k = some b := h3
          rw [h2] at this; simp at this
        · intro k b h2 h3
          obtain ⟨rfl, rfl⟩ := hnew k b h2 h3
          exact ⟨hid, hs, hp, hc⟩
        · intro k a b h2 h3 h4
          rw [hget k a h2] at h3; cases h3; exact absurd rfl h4
        · intro k a b h2 h3 h4
          have : ds.task? k = some b := h3
          rw [h2] at this; cases this; exact absurd rfl h4
        · intro k a b h2 h3 h4 h5
          have : ds.task? k = some b := h3
          rw [h2] at this; cases this; exact absurd h5 h4
        · intro k a b h2 h3 h4
          rw [hget k a h2] at h3; cases h3; exact absurd rfl h4
        · intro k a b h2 h3 h4 h5
          have : ds.task? k = some b := h3
          rw [h2] at this; cases this; exact absurd h5 h4
      · intro n hn
        refine ⟨fun b hb => ?_, (hu n hn).fresh⟩
        cases hold : ds.job? n with
        | some a => rw [hget n a hold] at hb; cases hb; exact (hu n hn).pend _ hold
        | none => obtain ⟨_, rfl⟩ := hnew n b hold hb; exact hs

end Tork
