import Verif.Props.Lifecycle
/-!
# Joins over whole histories (C11, C12, C16, C20, C05, C06)

Every theorem ranges over every history of the system: any interleaving, crash, fault, loss and duplicate
allowed by `Step`.
-/

namespace Tork
open Prog

variable {E : Env}

/-! ## Vocabulary -/

/-- In this step a child of task `id` is finished. -/
def FinishesChild (id : Nat) (s : World × World) : Prop :=
  ∃ tid c c', s.1.ds.task? tid = some c ∧ s.2.ds.task? tid = some c' ∧ c.parentID = id ∧
    (c.state = .running ∨ c.state = .scheduled ∨ c.state = .skipped) ∧
    (c'.state = .completed ∨ c'.state = .skipped) ∧ c'.completedAt.isSome

/-- In this step a child of task `id` becomes COMPLETED. -/
def CompletesChild (id : Nat) (s : World × World) : Prop :=
  ∃ tid c c', s.1.ds.task? tid = some c ∧ s.2.ds.task? tid = some c' ∧ c.parentID = id ∧
    c.state ≠ .completed ∧ c'.state = .completed

/-- At some point of the history the database satisfied `P`. -/
def Saw (l : List (World × World)) (P : DS → Prop) : Prop := ∃ s ∈ l, P s.2.ds

theorem Saw.snoc {l : List (World × World)} {s : World × World} {P : DS → Prop} (h : Saw l P) :
    Saw (l ++ [s]) P := by
  obtain ⟨x, hx, hp⟩ := h
  exact ⟨x, by simp [hx], hp⟩

theorem saw_last (l : List (World × World)) {s : World × World} {P : DS → Prop} (h : P s.2.ds) :
    Saw (l ++ [s]) P := ⟨s, by simp, h⟩

theorem stepsWith_mono (P : World × World → Prop) (l : List (World × World)) (s : World × World) :
    stepsWith P l ≤ stepsWith P (l ++ [s]) := by
  by_cases h : P s
  · rw [(stepsWith_snoc P l s).1 h]; omega
  · rw [(stepsWith_snoc P l s).2 h]; omega

/-- What the ghost state knows was visible in the history. -/
theorem history_ghost (hE : E.WellFormed) {l : List (World × World)} {w : World} (h : History E l w) :
    ∃ toks G, WInv E.restartOK w toks G ∧
      (∀ n, G.full n → Saw l fun ds => ∃ t, ds.task? n = some t ∧ t.Full) ∧
      (∀ n, G.subDone n → Saw l fun ds => ∃ id j, ds.job? id = some j ∧ j.parentID = n ∧ j.state = .completed) := by
  induction h with
  | init => exact ⟨[], {}, init_winv _, fun _ h => h.elim, fun _ h => h.elim⟩
  | @step l w w' h hs ih =>
    obtain ⟨toks, G, hi, h1, h2⟩ := ih
    obtain ⟨⟨toks', G', hi', _, hsn⟩, _⟩ := step_sound (env_safe hE) hi hs
    refine ⟨toks', G', hi', fun n hn => ?_, fun n hn => ?_⟩
    · rcases hsn.full n hn with h | h
      · exact (h1 n h).snoc
      · exact saw_last l h
    · rcases hsn.sub n hn with h | h
      · exact (h2 n h).snoc
      · exact saw_last l h

/-! ## Counters -/

/-- C11/C12: the counter of a parallel or each task is exact up to skipped children: over every history it is
at most the number of steps in which a child was finished and at least the number of steps in which a child
became COMPLETED. -/
theorem C11_counter_exact (hE : E.WellFormed) {l : List (World × World)} {w : World} (h : History E l w)
    {id : Nat} {t : Task} (ht : w.ds.task? id = some t) (h0 : id ≠ 0) :
    t.count ≤ stepsWith (FinishesChild id) l ∧ stepsWith (CompletesChild id) l ≤ t.count := by
  induction h generalizing t with
  | init => simp [DS.task?] at ht
  | @step l w w' h hs ih =>
    have hd := reachable_step (env_safe hE) h.reachable hs
    have hF := stepsWith_snoc (FinishesChild id) l (w, w')
    have hC := stepsWith_snoc (CompletesChild id) l (w, w')
    cases ha : w.ds.task? id with
    | none =>
      have hz0 := (hd.newTasks id t ha ht).2
      have hno : ∀ l' w'', History E l' w'' → (∀ b, w''.ds.task? id = some b → False) →
          stepsWith (CompletesChild id) l' = 0 := by
        intro l' w'' h'
        induction h' with
        | init => intro _; rfl
        | @step l1 w1 w2 h1 hs1 ih1 =>
          intro hn
          have hd1 := reachable_step (env_safe hE) h1.reachable hs1
          have hC1 := stepsWith_snoc (CompletesChild id) l1 (w1, w2)
          have hn1 : ∀ b, w1.ds.task? id = some b → False := by
            intro b hb
            obtain ⟨b', hb', _⟩ := hd1.tasks id b hb
            exact hn b' hb'
          rw [hC1.2, ih1 hn1]
          rintro ⟨tid, c, c', h3, h4, h6, h7, h8⟩
          obtain ⟨j1, j2, h9, _⟩ := (hd1.done tid c c' h3 h4 h7 h8).2 (by rw [h6]; exact h0)
          rw [h6] at h9
          exact hn1 _ h9
      have hz := hno l w h (by rw [ha]; intro b hb; cases hb)
      have hnc : ¬ CompletesChild id (w, w') := by
        rintro ⟨tid, c, c', h3, h4, h6, h7, h8⟩
        obtain ⟨j1, j2, h9, _⟩ := (hd.done tid c c' h3 h4 h7 h8).2 (by rw [h6]; exact h0)
        rw [h6, ha] at h9
        cases h9
      rw [hC.2 hnc, hz, hz0]
      omega
    | some a =>
      obtain ⟨ih1, ih2⟩ := ih ha
      have hm := C11_counter_counts_completions hE h.reachable hs ha ht
      constructor
      · rcases hm with hm | ⟨hm, hx⟩
        · have := stepsWith_mono (FinishesChild id) l (w, w'); omega
        · rw [hF.1 hx]; omega
      · by_cases hc : CompletesChild id (w, w')
        · rw [hC.1 hc]
          obtain ⟨tid, c, c', h3, h4, h6, h7, h8⟩ := hc
          obtain ⟨j1, j2, h9, h10, h11⟩ := (hd.done tid c c' h3 h4 h7 h8).2 (by rw [h6]; exact h0)
          rw [h6, ha] at h9
          rw [h6, ht] at h10
          cases h9; cases h10
          omega
        · rw [hC.2 hc]; omega

/-- Definitions do not change over a history: a row seen earlier is still there, with the same number of
branches and the same kind. -/
theorem history_row (hE : E.WellFormed) {l : List (World × World)} {w : World} (h : History E l w)
    {n : Nat} {s : World × World} (hs : s ∈ l) {a : Task} (ha : s.2.ds.task? n = some a) :
    ∃ b, w.ds.task? n = some b ∧ b.parallel.isSome = a.parallel.isSome ∧ b.branches = a.branches ∧
      b.each.isSome = a.each.isSome := by
  induction h with
  | init => simp at hs
  | @step l w w' h hst ih =>
    rcases List.mem_append.1 hs with h1 | h1
    · obtain ⟨b, hb, e1, e2, e3⟩ := ih h1
      obtain ⟨c, hc, hk⟩ := (C48_definitions_immutable hE h.reachable hst).2 n b hb
      exact ⟨c, hc, hk.2.1.trans e1, hk.2.2.2.2.1.trans e2, hk.2.2.1.trans e3⟩
    · simp at h1; subst h1
      exact ⟨a, ha, rfl, rfl, rfl⟩

/-- The history up to any of its points is a history. -/
theorem history_prefix {l : List (World × World)} {w : World} (h : History E l w) {s : World × World}
    (hs : s ∈ l) : ∃ l1 l2, l = l1 ++ l2 ∧ History E l1 s.2 := by
  induction h with
  | init => simp at hs
  | @step l w w' h hst ih =>
    rcases List.mem_append.1 hs with h1 | h1
    · obtain ⟨l1, l2, e, hh⟩ := ih h1
      exact ⟨l1, l2 ++ [(w, w')], by rw [e, List.append_assoc], hh⟩
    · simp at h1; subst h1
      exact ⟨_, [], by simp, .step h hst⟩

theorem stepsWith_append (P : World × World → Prop) (l1 l2 : List (World × World)) :
    stepsWith P l1 ≤ stepsWith P (l1 ++ l2) := by
  simp [stepsWith, List.filter_append]

theorem ne_zero_of_row (hE : E.WellFormed) {w : World} (hw : Reachable E w) {id : Nat} {t : Task}
    (ht : w.ds.task? id = some t) : id ≠ 0 := by
  obtain ⟨toks, G, hi⟩ := reachable_winv (env_safe hE) hw
  have h1 := (hi.db.ghost _ _ (hi.db.tasks id t ht).st).nz
  have : t.id = id := by
    unfold DS.task? at ht
    simpa using List.find?_some ht
  rw [← this]; exact h1

/-- C11: however the history went, a parallel task becomes COMPLETED only after as many steps in which one of
its children was finished as it has branches. -/
theorem C11_parallel_waits_for_all (hE : E.WellFormed) {l : List (World × World)} {w w' : World}
    (h : History E l w) (hs : Step E w w') {id : Nat} {a b : Task} {p : ParallelTask Task}
    (ha : w.ds.task? id = some a) (hb : w'.ds.task? id = some b) (hp : a.parallel = some p)
    (h1 : a.state ≠ .completed) (h2 : b.state = .completed) :
    p.tasks.length ≤ stepsWith (FinishesChild id) l := by
  obtain ⟨toks, G, hi, hfull, _⟩ := history_ghost hE h
  have hj := (step_sound (env_safe hE) hi hs).2.2 id a b ha hb h1 h2
  obtain ⟨s, hsl, t, ht, htf⟩ := hfull id (hj.full (.inl (by simp [Task.static, hp])))
  obtain ⟨b', hb', e1, e2, _⟩ := history_row hE h hsl ht
  rw [ha] at hb'; cases hb'
  obtain ⟨l1, l2, hl, hh⟩ := history_prefix h hsl
  have hc := (C11_counter_exact hE hh ht (ne_zero_of_row hE hh.reachable ht)).1
  have hst := stepsWith_append (FinishesChild id) l1 l2
  rw [← hl] at hst
  cases htp : t.parallel with
  | none => rw [htp, hp] at e1; cases e1
  | some q =>
    have h3 := htf.1 q htp
    have h4 : t.branches = p.tasks.length := by rw [← e2]; simp [Task.branches, hp]
    simp only [Task.branches, htp] at h4
    simp only [Task.count, htp] at hc
    omega

/-- C12: however the history went, an each task becomes COMPLETED only after a point at which it knew the
number of its items and had counted at least as many completions, each of them a step in which one of its
children was finished. -/
theorem C12_each_waits_for_all (hE : E.WellFormed) {l : List (World × World)} {w w' : World}
    (h : History E l w) (hs : Step E w w') {id : Nat} {a b : Task}
    (ha : w.ds.task? id = some a) (hb : w'.ds.task? id = some b) (hp : a.parallel = none)
    (he : a.each.isSome) (h1 : a.state ≠ .completed) (h2 : b.state = .completed) :
    Saw l fun ds => ∃ t e, ds.task? id = some t ∧ t.each = some e ∧ e.size ≤ e.completions ∧
      e.completions ≤ stepsWith (FinishesChild id) l := by
  obtain ⟨toks, G, hi, hfull, _⟩ := history_ghost hE h
  have hj := (step_sound (env_safe hE) hi hs).2.2 id a b ha hb h1 h2
  obtain ⟨s, hsl, t, ht, htf⟩ := hfull id (hj.full (.inr (by simpa [Task.static] using he)))
  obtain ⟨b', hb', e1, _, e3⟩ := history_row hE h hsl ht
  rw [ha] at hb'; cases hb'
  obtain ⟨l1, l2, hl, hh⟩ := history_prefix h hsl
  have hc := (C11_counter_exact hE hh ht (ne_zero_of_row hE hh.reachable ht)).1
  have hst := stepsWith_append (FinishesChild id) l1 l2
  rw [← hl] at hst
  have htn : t.parallel = none := by
    rw [hp] at e1
    cases htp : t.parallel with
    | none => rfl
    | some _ => rw [htp] at e1; cases e1
  cases hte : t.each with
  | none => rw [hte] at e3; rw [e3] at he; cases he
  | some e =>
    have h3 := htf.2 htn e hte
    simp only [Task.count, htn, hte] at hc
    exact ⟨s, hsl, t, e, ht, hte, h3, Nat.le_trans hc hst⟩

/-- C16: however the history went, a task that stands for an attached sub-job becomes COMPLETED only after a
job started for it has been COMPLETED. -/
theorem C16_subjob_parent_waits (hE : E.WellFormed) {l : List (World × World)} {w w' : World}
    (h : History E l w) (hs : Step E w w') {id : Nat} {a b : Task} {sj : SubJobTask Task}
    (ha : w.ds.task? id = some a) (hb : w'.ds.task? id = some b) (hp : a.parallel = none) (he : a.each = none)
    (hsub : a.subJob = some sj) (hd : sj.detached = false)
    (h1 : a.state ≠ .completed) (h2 : b.state = .completed) :
    ∃ jid j, w.ds.job? jid = some j ∧ j.parentID = id ∧ j.state = .completed := by
  obtain ⟨toks, G, hi, _, hsd⟩ := history_ghost hE h
  have hj := (step_sound (env_safe hE) hi hs).2.2 id a b ha hb h1 h2
  obtain ⟨s, hsl, jid, j, hjj, hjp, hjc⟩ := hsd id (hj.sub (by simp [Task.static, hp]) (by simp [Task.static, he])
    (by simp [Task.static, hsub]) (by simp [Task.static, Task.detachedSub, hsub, hd]))
  -- COMPLETED is final and the parent of a job never changes
  have : ∀ {l : List (World × World)} {w : World}, History E l w → s ∈ l →
      ∃ j', w.ds.job? jid = some j' ∧ j'.parentID = id ∧ j'.state = .completed := by
    intro l w h hsl
    induction h with
    | init => simp at hsl
    | @step l w w' h hst ih =>
      rcases List.mem_append.1 hsl with h1 | h1
      · obtain ⟨j', e1, e2, e3⟩ := ih h1
        obtain ⟨j2, k1, k2⟩ := (C48_definitions_immutable hE h.reachable hst).1 jid j' e1
        obtain ⟨j3, k3, k4⟩ := C02_completed_final hE h.reachable (.tail (.refl _) hst) e1 e3
        rw [k1] at k3; cases k3
        refine ⟨j2, k1, ?_, k4⟩
        rw [← e2, k2]
      · simp at h1; subst h1
        exact ⟨j, hjj, hjp, hjc⟩
  obtain ⟨j', e1, e2, e3⟩ := this h hsl
  exact ⟨jid, j', e1, e2, e3⟩

/-! ## C20: the context -/

/-- C20: in every step of the system the context of a job is unchanged, or exactly one of its task variables
is set, to the result of a task of this job that is finished in this step. -/
theorem C20_context_changes_only_by_results (hE : E.WellFormed) {w w' : World} (hw : Reachable E w)
    (hs : Step E w w') {id : Nat} {a b : Job} (ha : w.ds.job? id = some a) (hb : w'.ds.job? id = some b) :
    b.context = a.context ∨
    ∃ tid c c' r, w.ds.task? tid = some c ∧ w'.ds.task? tid = some c' ∧ c.jobID = id ∧
      (c.state = .running ∨ c.state = .scheduled ∨ c.state = .skipped) ∧
      (c'.state = .completed ∨ c'.state = .skipped) ∧
      c.var ≠ "" ∧ r ≠ "" ∧ c'.result = sanitizeString r ∧
      b.context = { a.context with tasks := mset a.context.tasks c.var r } := by
  by_cases h : b.context = a.context
  · exact .inl h
  · obtain ⟨tid, c, c', r, h1, h2, h3, ⟨h4, h5, _⟩, h6, h7, h8, h9, _⟩ :=
      (reachable_step (env_safe hE) hw hs).context id a b ha hb h
    exact .inr ⟨tid, c, c', r, h1, h2, h3, h4, h5, h6, h7, h8, h9⟩

/-- C20: no result is lost: the very step that makes a task with a variable COMPLETED with a result stores
that result in the context of its job. -/
theorem C20_no_result_lost (hE : E.WellFormed) {w w' : World} (hw : Reachable E w)
    (hs : Step E w w') {id : Nat} {a b : Task} (ha : w.ds.task? id = some a) (hb : w'.ds.task? id = some b)
    (h1 : a.state ≠ .completed) (h2 : b.state = .completed) (hv : a.var ≠ "") (hr : b.result ≠ "") :
    ∃ r j j', b.result = sanitizeString r ∧ w.ds.job? a.jobID = some j ∧ w'.ds.job? a.jobID = some j' ∧
      j'.context = { j.context with tasks := mset j.context.tasks a.var r } := by
  obtain ⟨r, h3, h4⟩ := (reachable_step (env_safe hE) hw hs).recorded id a b ha hb h1 h2
  have hne : r ≠ "" := by
    rintro rfl
    exact hr (by rw [h3]; decide +kernel)
  obtain ⟨j, j', h5, h6, h7⟩ := h4 hne hv
  exact ⟨r, j, j', h3, h5, h6, h7⟩

/-- C20 over histories: inputs, secrets and the description of the job in its context never change. -/
theorem C20_inputs_immutable (hE : E.WellFormed) {w w' : World} (hw : Reachable E w)
    (hs : Steps E w w') {id : Nat} {a : Job} (ha : w.ds.job? id = some a) :
    ∃ b, w'.ds.job? id = some b ∧ b.context.inputs = a.context.inputs ∧
      b.context.secrets = a.context.secrets ∧ b.context.job = a.context.job := by
  induction hs with
  | refl => exact ⟨a, ha, rfl, rfl, rfl⟩
  | @tail w1 w2 h1 h2 ih =>
    obtain ⟨b, hb, e1, e2, e3⟩ := ih
    obtain ⟨c, hc, _⟩ := (C01_job_lifecycle hE (Steps.trans hw h1) h2).1 id b hb
    refine ⟨c, hc, ?_⟩
    rcases C20_context_changes_only_by_results hE (Steps.trans hw h1) h2 hb hc with h | h
    · rw [h]; exact ⟨e1, e2, e3⟩
    · obtain ⟨_, _, _, _, _, _, _, _, _, _, _, _, h⟩ := h
      rw [h]; exact ⟨e1, e2, e3⟩

/-! ## C05, C06 without skipped tasks -/

/-- In the history no top-level task of job `id` was ever SKIPPED. -/
def NeverSkips (id : Nat) (l : List (World × World)) : Prop :=
  ∀ s ∈ l, ∀ tid t, s.2.ds.task? tid = some t → t.jobID = id → t.parentID = 0 → t.state ≠ .skipped

/-- C05: without skipped tasks the position of a started job is exactly one more than the number of steps in
which one of its top-level tasks became COMPLETED. -/
theorem C05_position_exact (hE : E.WellFormed) {l : List (World × World)} {w : World} (h : History E l w)
    {id : Nat} (hns : NeverSkips id l) {j : Job} (hj : w.ds.job? id = some j) (hst : j.position ≠ 0) :
    j.position = 1 + stepsWith (CompletesTopLevel id) l := by
  have hge : ∀ {l : List (World × World)} {w : World}, History E l w → NeverSkips id l →
      ∀ {j : Job}, w.ds.job? id = some j →
      j.position ≤ 1 + stepsWith (CompletesTopLevel id) l := by
    intro l w h hns
    induction h with
    | init => intro j hj; simp [DS.job?] at hj
    | @step l w w' h hs ih =>
      intro j hj
      have hns' : NeverSkips id l := fun s hs => hns s (by simp [hs])
      have hm := stepsWith_mono (CompletesTopLevel id) l (w, w')
      cases ha : w.ds.job? id with
      | none =>
        have h0 := ((reachable_step (env_safe hE) h.reachable hs).newJobs id j ha hj).2.1
        omega
      | some a =>
        have := ih hns' ha
        rcases C05_position_moves hE h.reachable hs ha hj with h1 | h1 | ⟨h1, tid, c, c', k1, k2, k3, k4, ⟨k5, k6, k7⟩, _⟩
        · omega
        · omega
        · have hd := reachable_step (env_safe hE) h.reachable hs
          obtain ⟨d, hd1, hd2, _⟩ := hd.tasks tid c k1
          rw [k2] at hd1; cases hd1
          have hjid : c'.jobID = id := by rw [← k3, hd2.1]
          have hpid : c'.parentID = 0 := by rw [← k4, hd2.1]
          have hcomp : c'.state = .completed := by
            rcases k6 with k6 | k6
            · exact k6
            · exact absurd k6 (hns (w, w') (by simp) tid c' k2 hjid hpid)
          have hc : CompletesTopLevel id (w, w') :=
            ⟨tid, c, c', k1, k2, k3, k4, by rcases k5 with k | k | k <;> rw [k] <;> simp, hcomp⟩
          rw [(stepsWith_snoc (CompletesTopLevel id) l (w, w')).1 hc]
          omega
  refine Nat.le_antisymm (hge h hns hj) ?_
  -- every completion moved the position, and the start moved it once
  clear hge hns
  induction h generalizing j with
  | init => simp [DS.job?] at hj
  | @step l w w' h hs ih =>
    have hd := reachable_step (env_safe hE) h.reachable hs
    have hC := stepsWith_snoc (CompletesTopLevel id) l (w, w')
    cases ha : w.ds.job? id with
    | none =>
      exact absurd (hd.newJobs id j ha hj).2.1 hst
    | some a =>
      by_cases hz : a.position = 0
      · -- not started before this step: this is the start
        obtain ⟨toks, G, hi⟩ := reachable_winv (env_safe hE) h.reachable
        have hpend : a.state = .pending := by
          by_cases hp : a.state = .pending
          · exact hp
          · exact absurd hz ((hi.db.jobs id a ha).began hp)
        have h0 := (C05_position_counts hE h ha).2
        have hnc : ¬ CompletesTopLevel id (w, w') := by
          rintro ⟨tid, c, c', h3, h4, h5, h6, h7, h8⟩
          obtain ⟨j1, j2, h9, _, h10, _⟩ := (hd.done tid c c' h3 h4 h7 h8).1 h6
          rw [h5, ha] at h9; cases h9
          exact h10 hpend
        rw [hC.2 hnc]
        omega
      · have h1 := ih ha hz
        by_cases hc : CompletesTopLevel id (w, w')
        · rw [hC.1 hc]
          obtain ⟨tid, c, c', h3, h4, h5, h6, h7, h8⟩ := hc
          obtain ⟨j1, j2, h9, h10, _, h11⟩ := (hd.done tid c c' h3 h4 h7 h8).1 h6
          rw [h5, ha] at h9
          rw [h5, hj] at h10
          cases h9; cases h10
          omega
        · rw [hC.2 hc]
          rcases C05_position_moves hE h.reachable hs ha hj with h1 | h1 | ⟨h1, h2⟩ <;> omega

/-- C06: without skipped tasks a COMPLETED job with `n` top-level tasks had at least `n` steps in which one of
its top-level tasks became COMPLETED. -/
theorem C06_completed_tasks (hE : E.WellFormed) {l : List (World × World)} {w : World}
    (h : History E l w) {id : Nat} (hns : NeverSkips id l) {j : Job} (hj : w.ds.job? id = some j)
    (hc : j.state = .completed) : j.tasks.length ≤ stepsWith (CompletesTopLevel id) l := by
  have h1 := C06_completed_past_last hE h.reachable hj hc
  have h2 := C05_position_exact hE h hns hj (by omega)
  omega

/-! ## Workers -/

/-- C19: whatever happened, a task in a queue that workers read has work of its own: parallel, each and
sub-job tasks are never handed to a worker. -/
theorem C19_workers_get_plain_tasks (hE : E.WellFormed) {w : World} (hw : Reachable E w) {q : String} {t : Task}
    (hm : Msg.task q t ∈ w.msgs) (hq : isTaskQueue q = true) :
    t.parallel = none ∧ t.each = none ∧ t.subJob = none := by
  obtain ⟨toks, G, hi⟩ := reachable_winv (env_safe hE) hw
  obtain ⟨h1, h2, h3⟩ := (hi.msgs _ hm).2.work (.inl hq)
  refine ⟨?_, ?_, ?_⟩
  · cases h : t.parallel with
    | none => rfl
    | some _ => simp [Task.static, h] at h1
  · cases h : t.each with
    | none => rfl
    | some _ => simp [Task.static, h] at h2
  · cases h : t.subJob with
    | none => rfl
    | some _ => simp [Task.static, h] at h3

/-! ## Concrete cases -/

/-- Every database the program passes through satisfies `Q`. -/
def Prog.allDs (Q : DS → Bool) : Prog Unit → Sys → Bool
  | .ret _, _ => true
  | .panic _, _ => true
  | .db op k, s =>
    let s' := { s with ds := (op.run s.ds).2.1, out := s.out ++ (op.run s.ds).2.2 }
    Q s'.ds && Prog.allDs Q (k (op.run s.ds).1) s'
  | .pub m k, s => Q s.ds && Prog.allDs Q (k (.ok ())) { s with out := s.out ++ [m] }
  | .nondet k, s => Q s.ds && Prog.allDs Q (k (s.o s.tick)) { s with tick := s.tick + 1 }
  | .uuid k, s => Q s.ds && Prog.allDs Q (k s.next) { s with next := s.next + 1 }

/-- A history all of whose databases satisfy `Q`. -/
def Through (E : Env) (Q : DS → Bool) (w : World) : Prop :=
  ∃ l, History E l w ∧ ∀ s ∈ l, Q s.2.ds = true

theorem Through.step {Q : DS → Bool} {w w' : World} (h : Through E Q w) (hs : Step E w w') (hq : Q w'.ds = true) :
    Through E Q w' := by
  obtain ⟨l, h1, h2⟩ := h
  refine ⟨_, .step h1 hs, fun s hs => ?_⟩
  rcases List.mem_append.1 hs with h | h
  · exact h2 s h
  · simp at h; subst h; exact hq

theorem through_exec (Q : DS → Bool) (p : Prog Unit) (s : Sys) (a b : List (Prog Unit)) (m0 : List Msg)
    (h : Through E Q { ds := s.ds, msgs := m0 ++ s.out, threads := a ++ p :: b, next := s.next })
    (hq : p.allDs Q s = true) :
    ∃ p', Through E Q { ds := (p.exec s).2.ds, msgs := m0 ++ (p.exec s).2.out, threads := a ++ p' :: b
                        next := (p.exec s).2.next } := by
  induction p generalizing s with
  | ret x => exact ⟨.ret x, h⟩
  | panic e => exact ⟨.panic e, h⟩
  | db op k ih =>
    simp only [Prog.allDs, Bool.and_eq_true] at hq
    have h1 := h.step (.op _ a b _ _ _ _ _ rfl (.dbOk op k s.ds s.next)) hq.1
    obtain ⟨p', h2⟩ := ih (op.run s.ds).1 { s with ds := (op.run s.ds).2.1, out := s.out ++ (op.run s.ds).2.2 }
      (by simpa [List.append_assoc] using h1) hq.2
    exact ⟨p', by simpa [Prog.exec, List.append_assoc] using h2⟩
  | pub m k ih =>
    simp only [Prog.allDs, Bool.and_eq_true] at hq
    have h1 := h.step (.op _ a b _ _ _ _ _ rfl (.pubOk m k s.ds s.next)) hq.1
    obtain ⟨p', h2⟩ := ih (.ok ()) { s with out := s.out ++ [m] } (by simpa [List.append_assoc] using h1) hq.2
    exact ⟨p', by simpa [Prog.exec, List.append_assoc] using h2⟩
  | nondet k ih =>
    simp only [Prog.allDs, Bool.and_eq_true] at hq
    have h1 := h.step (.op _ a b _ _ _ _ _ rfl (.nondet k s.ds s.next (s.o s.tick))) hq.1
    obtain ⟨p', h2⟩ := ih (s.o s.tick) { s with tick := s.tick + 1 } (by simpa [List.append_assoc] using h1) hq.2
    exact ⟨p', by simpa [Prog.exec, List.append_assoc] using h2⟩
  | uuid k ih =>
    simp only [Prog.allDs, Bool.and_eq_true] at hq
    have h1 := h.step (.op _ a b _ _ _ _ _ rfl (.uuid k s.ds s.next)) hq.1
    obtain ⟨p', h2⟩ := ih s.next { s with next := s.next + 1 } (by simpa [List.append_assoc] using h1) hq.2
    exact ⟨p', by simpa [Prog.exec, List.append_assoc] using h2⟩

theorem exec_allDs_last (Q : DS → Bool) (p : Prog Unit) (s : Sys) (h0 : Q s.ds = true) (hq : p.allDs Q s = true) :
    Q (p.exec s).2.ds = true := by
  induction p generalizing s with
  | ret x => exact h0
  | panic e => exact h0
  | db op k ih => simp only [Prog.allDs, Bool.and_eq_true] at hq; exact ih _ _ hq.1 hq.2
  | pub m k ih => simp only [Prog.allDs, Bool.and_eq_true] at hq; exact ih _ _ hq.1 hq.2
  | nondet k ih => simp only [Prog.allDs, Bool.and_eq_true] at hq; exact ih _ _ hq.1 hq.2
  | uuid k ih => simp only [Prog.allDs, Bool.and_eq_true] at hq; exact ih _ _ hq.1 hq.2

theorem through_run (Q : DS → Bool) {w : World} {p : Prog Unit} (h : Through E Q { w with threads := w.threads ++ [p] })
    (h0 : Q w.ds = true) (hq : p.allDs Q { ds := w.ds, out := [], next := w.next } = true) :
    Through E Q (w.run p) ∧ Q (w.run p).ds = true := by
  have hl := exec_allDs_last Q p { ds := w.ds, out := [], next := w.next } h0 hq
  refine ⟨?_, hl⟩
  obtain ⟨p', h1⟩ := through_exec Q p { ds := w.ds, out := [], next := w.next } w.threads [] w.msgs
    (by simpa using h) hq
  have h2 := h1.step (.crash _ w.threads [] p' rfl) hl
  simpa [World.run] using h2

/-- `World.auto` passes only through databases that satisfy `Q`. -/
def World.autoAll (E : Env) (r : WorkerRun) (Q : DS → Bool) (w : World) : Nat → Bool
  | 0 => true
  | n + 1 =>
    match w.msgs[n]? with
    | some (.event _ _) => w.autoAll E r Q n
    | some (.task q t) =>
      if isTaskQueue q then (doHandleTask E.C r t).discard.allDs Q { ds := w.ds, out := [], next := w.next }
      else match coordinatorHandler E.C E.fuel (.task q t) with
        | none => true
        | some p => p.discard.allDs Q { ds := w.ds, out := [], next := w.next }
    | some m => match coordinatorHandler E.C E.fuel m with
        | none => true
        | some p => p.discard.allDs Q { ds := w.ds, out := [], next := w.next }
    | none => w.autoAll E r Q n

def World.driveAll (E : Env) (r : WorkerRun) (Q : DS → Bool) : Nat → World → Bool
  | 0, _ => true
  | n + 1, w => w.autoAll E r Q w.msgs.length && World.driveAll E r Q n (w.auto E r w.msgs.length)

theorem through_deliver {Q : DS → Bool} {w : World} (h : Through E Q w) (h0 : Q w.ds = true) {n : Nat} {m : Msg}
    (hm : w.msgs[n]? = some m) (hq : (match coordinatorHandler E.C E.fuel m with
        | none => true
        | some p => p.discard.allDs Q { ds := w.ds, out := [], next := w.next }) = true) :
    Through E Q (w.deliver E n) ∧ Q (w.deliver E n).ds = true := by
  unfold World.deliver
  rw [hm]
  dsimp only
  cases hp : coordinatorHandler E.C E.fuel m with
  | none => exact ⟨h, h0⟩
  | some p =>
    rw [hp] at hq
    exact through_run Q (w := { w with msgs := w.msgs.take n ++ w.msgs.drop (n + 1) })
      (h.step (.deliver w _ _ m p (split_at hm) hp) h0) h0 hq

theorem through_auto {Q : DS → Bool} {r : WorkerRun} (hr : E.workerOK r) {w : World} (h : Through E Q w)
    (h0 : Q w.ds = true) (n : Nat) (hq : w.autoAll E r Q n = true) :
    Through E Q (w.auto E r n) ∧ Q (w.auto E r n).ds = true := by
  induction n with
  | zero => exact ⟨h, h0⟩
  | succ n ih =>
    unfold World.autoAll at hq
    unfold World.auto
    cases hm : w.msgs[n]? with
    | none => rw [hm] at hq; exact ih hq
    | some m =>
      rw [hm] at hq
      cases m with
      | event _ _ => exact ih hq
      | task q t =>
        dsimp only at hq ⊢
        by_cases hqq : isTaskQueue q = true
        · rw [if_pos hqq] at hq ⊢
          unfold World.work
          rw [hm]
          dsimp only
          rw [if_neg (by simp [hqq])]
          exact through_run Q (w := { w with msgs := w.msgs.take n ++ w.msgs.drop (n + 1) })
            (h.step (.work w _ _ q t r (split_at hm) hqq hr) h0) h0 hq
        · rw [if_neg hqq] at hq ⊢
          exact through_deliver h h0 hm hq
      | job j => exact through_deliver h h0 hm hq
      | progress t => exact through_deliver h h0 hm hq
      | heartbeat t => exact through_deliver h h0 hm hq
      | schedEvent t => exact through_deliver h h0 hm hq

theorem through_drive {Q : DS → Bool} {r : WorkerRun} (hr : E.workerOK r) (n : Nat) {w : World}
    (h : Through E Q w) (h0 : Q w.ds = true) (hq : World.driveAll E r Q n w = true) :
    Through E Q (World.drive E r n w) := by
  induction n generalizing w with
  | zero => exact h
  | succ n ih =>
    simp only [World.driveAll, Bool.and_eq_true] at hq
    have h1 := through_auto hr h h0 _ hq.1
    exact ih h1.1 h1.2 hq.2

/-- The step at which a property of the database first became true. -/
theorem first_time (P : DS → Prop) {l : List (World × World)} {w : World} (h : History E l w)
    (h0 : ¬ P {}) (h1 : P w.ds) : ∃ l' a b, History E l' a ∧ Step E a b ∧ ¬ P a.ds ∧ P b.ds := by
  induction h with
  | init => exact absurd h1 h0
  | @step l w w' h hs ih =>
    by_cases hw : P w.ds
    · exact ih hw
    · exact ⟨l, w, w', h, hs, hw, h1⟩

namespace JoinsEx

def plain : Task := { name := "work", run := "echo", var := "v" }
/-- an each task over two items, a parallel task with two branches, an attached sub-job -/
def job : Job := { name := "joins", tasks := [
  { name := "all", each := some { list := "items", task := plain } },
  { name := "both", parallel := some { tasks := [plain, plain] } },
  { name := "sub", subJob := some { name := "inner", tasks := [plain] } }] }

/-- the worker returns the name of the task as its result -/
def worker : WorkerRun := { run := fun t => (none, { t with result := "done" }) }

def env : Env where
  C := exCfg
  fuel := 3
  submitOK j := j = job
  fireOK _ := False
  workerOK r := r = worker
  restartOK _ := False

theorem plain_fresh : plain.Fresh :=
  ⟨fun r h => by simp [plain] at h, rfl, rfl, fun _ h => by simp [plain] at h, fun _ h => by simp [plain] at h,
   fun _ h => by simp [plain] at h, fun _ h => by simp [plain] at h, fun _ h => by simp [plain] at h⟩

theorem env_wf : env.WellFormed where
  submit j hj := by
    cases hj
    refine ⟨rfl, fun t ht => ?_⟩
    simp only [job, List.mem_cons, List.not_mem_nil, or_false] at ht
    rcases ht with rfl | rfl | rfl
    · refine ⟨fun r h => by simp at h, rfl, rfl, fun _ h => by simp at h, fun _ h => by simp at h,
        fun e h => by cases h; rfl, fun e h => by cases h; exact plain_fresh, fun _ h => by simp at h⟩
    · refine ⟨fun r h => by simp at h, rfl, rfl, fun p h => by cases h; rfl, fun p h c hc => ?_,
        fun _ h => by simp at h, fun _ h => by simp at h, fun _ h => by simp at h⟩
      cases h
      simp at hc
      rw [hc]; exact plain_fresh
    · refine ⟨fun r h => by simp at h, rfl, rfl, fun _ h => by simp at h, fun _ h => by simp at h,
        fun _ h => by simp at h, fun _ h => by simp at h, fun s h c hc => ?_⟩
      cases h
      simp at hc
      rw [hc]; exact plain_fresh
  fire _ h := h.elim
  worker w hw t := by cases hw; exact ⟨rfl, rfl, rfl, rfl, rfl, rfl, rfl, rfl, rfl⟩

def world : World := World.drive env worker 40 (World.run {} (apiSubmit none job).discard)

theorem world_reachable : Reachable env world :=
  reachable_drive rfl 40 (reachable_spawn (.submit none job rfl) (reachable_init _))

example : jobStates world = [(1, .completed, 4), (9, .completed, 2)] := by decide +kernel
example : taskStates world = [(2, .completed, 1, 0), (3, .completed, 1, 2), (4, .completed, 1, 2),
  (5, .completed, 2, 0), (6, .completed, 2, 5), (7, .completed, 2, 5), (8, .completed, 3, 0),
  (10, .completed, 1, 0)] := by decide +kernel
example : world.ds.jobs.map (·.context.tasks) = [[("v", "done")], [("v", "done")]] := by decide +kernel

/-- Some history of this system contains the step in which the row became COMPLETED. -/
theorem completing_step (n : Nat) (K : Task → Prop) [DecidablePred K] (hK : ∀ a b, SameTask a b → K b → K a)
    (h : (world.ds.task? n).any (fun t => decide (t.state = .completed) && decide (K t)) = true) :
    ∃ l a b ra rb, History env l a ∧ Step env a b ∧ a.ds.task? n = some ra ∧ b.ds.task? n = some rb ∧
      ra.state ≠ .completed ∧ rb.state = .completed ∧ K ra := by
  obtain ⟨l, hl⟩ := world_reachable.history
  have h : ∃ t, world.ds.task? n = some t ∧ t.state = .completed ∧ K t := by
    rw [Option.any_eq_true] at h
    obtain ⟨t, h1, h2⟩ := h
    simp only [Bool.and_eq_true, decide_eq_true_eq] at h2
    exact ⟨t, h1, h2⟩
  obtain ⟨l', a, b, h1, h2, h3, rb, h4, h5, h6⟩ := first_time
    (fun ds => ∃ t, ds.task? n = some t ∧ t.state = .completed ∧ K t) hl (by rintro ⟨t, ht, _⟩; cases ht) h
  have hd := reachable_step (env_safe env_wf) h1.reachable h2
  cases ha : a.ds.task? n with
  | none =>
    have := (hd.newTasks n rb ha h4).1
    rw [h5] at this
    rcases this with h | h | h <;> cases h
  | some ra =>
    obtain ⟨rb', k1, k2, _⟩ := hd.tasks n ra ha
    rw [h4] at k1; cases k1
    have hk := hK _ _ k2 h6
    exact ⟨l', a, b, ra, rb, h1, h2, ha, h4, fun hc => h3 ⟨ra, ha, hc, hk⟩, h5, hk⟩

/-- C11 applies: the parallel task (row 5) completes in a history of `env`. -/
example : ∃ l a b ra rb, History env l a ∧ Step env a b ∧ a.ds.task? 5 = some ra ∧ b.ds.task? 5 = some rb ∧
    ra.state ≠ .completed ∧ rb.state = .completed ∧ ra.parallel.isSome = true :=
  completing_step 5 (fun t => t.parallel.isSome = true) (fun _ _ h hb => h.2.1 ▸ hb)
    (by decide +kernel)

/-- C12 applies: the each task (row 2) completes. -/
example : ∃ l a b ra rb, History env l a ∧ Step env a b ∧ a.ds.task? 2 = some ra ∧ b.ds.task? 2 = some rb ∧
    ra.state ≠ .completed ∧ rb.state = .completed ∧ ra.parallel.isSome = false ∧ ra.each.isSome = true :=
  completing_step 2 (fun t => t.parallel.isSome = false ∧ t.each.isSome = true)
    (fun _ _ h hb => ⟨h.2.1 ▸ hb.1, h.2.2.1 ▸ hb.2⟩)
    (by decide +kernel)

/-- C16 applies: the task of the attached sub-job (row 8) completes. -/
example : ∃ l a b ra rb, History env l a ∧ Step env a b ∧ a.ds.task? 8 = some ra ∧ b.ds.task? 8 = some rb ∧
    ra.state ≠ .completed ∧ rb.state = .completed ∧ ra.subJob.isSome = true ∧ ra.detachedSub = false :=
  completing_step 8 (fun t => t.subJob.isSome = true ∧ t.detachedSub = false)
    (fun _ _ h hb => ⟨h.2.2.2.1 ▸ hb.1, h.2.2.2.2.2 ▸ hb.2⟩)
    (by decide +kernel)

/-- no row is SKIPPED -/
def noSkip (ds : DS) : Bool := ds.tasks.all fun t => decide (t.state ≠ .skipped)

/-- C05/C06 apply: the job completes and no task was ever SKIPPED. -/
example : ∃ l, History env l world ∧ NeverSkips 1 l ∧
    ∃ j, world.ds.job? 1 = some j ∧ j.state = .completed ∧ j.tasks.length = 3 := by
  obtain ⟨h1, h2⟩ := through_run (E := env) noSkip (w := {}) (p := (apiSubmit none job).discard)
    (Through.step ⟨[], .init, by simp⟩ (.spawn _ _ (.submit none job rfl)) (by decide)) (by decide)
    (by decide +kernel)
  obtain ⟨l, hl, hns⟩ := through_drive (E := env) (r := worker) rfl 40 h1 h2 (by decide +kernel)
  have hns : NeverSkips 1 l := by
    intro s hs tid t ht _ _
    have := hns s hs
    simp only [noSkip, List.all_eq_true] at this
    simpa using this t (List.mem_of_find?_eq_some ht)
  have h : (world.ds.job? 1).any (fun j => decide (j.state = .completed) && decide (j.tasks.length = 3)) = true := by
    decide +kernel
  rw [Option.any_eq_true] at h
  obtain ⟨j, h1, h2⟩ := h
  simp only [Bool.and_eq_true, decide_eq_true_eq] at h2
  exact ⟨l, hl, hns, j, h1, h2⟩

/-- C20 applies: in some step of a history the context of job 1 changes, and some task with a variable and a
result becomes COMPLETED. -/
example : ∃ a b ra rb, Reachable env a ∧ Step env a b ∧ a.ds.task? 3 = some ra ∧ b.ds.task? 3 = some rb ∧
    ra.state ≠ .completed ∧ rb.state = .completed ∧ ra.var ≠ "" := by
  obtain ⟨l, a, b, ra, rb, h1, h2, h3, h4, h5, h6, h7⟩ := completing_step 3 (fun t => t.var ≠ "")
    (fun a b h hb => by rw [h.1]; exact hb) (by decide +kernel)
  exact ⟨a, b, ra, rb, h1.reachable, h2, h3, h4, h5, h6, h7⟩

/-- C19 applies: a task waits in a worker's queue. -/
example : ∃ q t, Msg.task q t ∈ exW1.msgs ∧ isTaskQueue q = true := by
  have h : exW1.msgs.any (fun m => match m with | .task q _ => isTaskQueue q | _ => false) = true := by
    decide +kernel
  rw [List.any_eq_true] at h
  obtain ⟨m, h1, h2⟩ := h
  cases m with
  | task q t => exact ⟨q, t, h1, h2⟩
  | _ => simp at h2

end JoinsEx

end Tork
