import Verif.Props.Join
import Mathlib.Data.Finset.Card
import Mathlib.Data.Finset.Image
import Mathlib.Data.Finset.Range
/-!
# C13 — the concurrency limit of an each task, over whole runs
-/

namespace Tork
open Prog

/-! ## Specification -/

/-- Released and not finished. -/
def TaskState.inFlight (s : TaskState) : Prop := s = .pending ∨ s = .scheduled ∨ s = .running

instance (s : TaskState) : Decidable s.inFlight := by unfold TaskState.inFlight; infer_instance

/-- The tasks whose rows satisfy `P`. -/
def DS.idsWith (ds : DS) (P : Task → Prop) [DecidablePred P] : Finset Nat :=
  (ds.tasks.map (·.id)).toFinset.filter fun k => ∃ r ∈ ds.task? k, P r

/-- The children of `pid` that have been released and have not finished. -/
def DS.released (ds : DS) (pid : Nat) : Finset Nat := ds.idsWith fun r => r.parentID = pid ∧ r.state.inFlight

/-- The children of `pid` that are held back. -/
def DS.held (ds : DS) (pid : Nat) : Finset Nat := ds.idsWith fun r => r.parentID = pid ∧ r.state = .created

/-- The each section of task `pid`. -/
def DS.eachOf (ds : DS) (pid : Nat) : Option (EachTask Task) := (ds.task? pid).bind (·.each)

/-- The runs of an each task `pid` that has been started: the children's completions are handled one after the other, each
once, and in between anything may happen that keeps the each section of the task and the numbers of released and of
held-back children (scheduling, starting and retrying children, all work on other tasks). -/
inductive EachRun (C : Cfg) (fuel pid : Nat) : Sys → Sys → Prop
  | start {s : Sys} : EachRun C fuel pid s s
  | done {s0 s s' : Sys} {t u p : Task} {e : EachTask Task} {j : Job} {q : Prog Res} : EachRun C fuel pid s0 s →
      ChildDone s t u p j → t.parentID = pid → t.state = .completed → u.parentID = pid → u.state.inFlight →
      p.parallel = none → p.each = some e → e.completions + 1 < e.size → p.state ≠ .created → p.parentID ≠ pid →
      coordinatorHandler C (fuel + 1) (.task "completed" t) = some q → q.exec s = (some none, s') →
      (s'.ds.tasks.map (·.id)).Nodup → EachRun C fuel pid s0 s'
  | other {s0 s s' : Sys} : EachRun C fuel pid s0 s → (s'.ds.tasks.map (·.id)).Nodup →
      s'.ds.eachOf pid = s.ds.eachOf pid → (s'.ds.released pid).card = (s.ds.released pid).card →
      (s'.ds.held pid).card = (s.ds.held pid).card → EachRun C fuel pid s0 s'

/-! ## Lemmas -/

theorem mem_idsWith {ds : DS} {P : Task → Prop} [DecidablePred P] {k : Nat} :
    k ∈ ds.idsWith P ↔ ∃ r, ds.task? k = some r ∧ P r := by
  unfold DS.idsWith
  rw [Finset.mem_filter]
  constructor
  · rintro ⟨_, r, h1, h2⟩; exact ⟨r, h1, h2⟩
  · rintro ⟨r, h1, h2⟩
    refine ⟨?_, r, h1, h2⟩
    obtain ⟨a, b⟩ := task?_mem h1
    rw [List.mem_toFinset, List.mem_map]
    exact ⟨r, a, b⟩

/-- The counters of an each task in the middle of a run. -/
def EachInv (c n : Nat) (pid : Nat) (ds : DS) : Prop :=
  ∃ e, ds.eachOf pid = some e ∧ e.size = n ∧ e.concurrency = c ∧ e.index = c + e.completions ∧ e.completions < e.size ∧
    (ds.released pid).card = min c (e.size - e.completions) ∧
    (ds.held pid).card = e.size - min (c + e.completions) e.size ∧ (ds.tasks.map (·.id)).Nodup

theorem eachInv_done {C : Cfg} {fuel c n : Nat} {s s' : Sys} {t u p : Task} {e : EachTask Task} {j : Job} {q : Prog Res} (hc : 0 < c)
    (hi : EachInv c n t.parentID s.ds) (h : ChildDone s t u p j) (hst : t.state = .completed) (hup : u.parentID = t.parentID)
    (huf : u.state.inFlight) (hpar : p.parallel = none) (he : p.each = some e) (hmore : e.completions + 1 < e.size)
    (hps : p.state ≠ .created) (hpp : p.parentID ≠ t.parentID)
    (hq : coordinatorHandler C (fuel + 1) (.task "completed" t) = some q) (hx : q.exec s = (some none, s'))
    (hids' : (s'.ds.tasks.map (·.id)).Nodup) : EachInv c n t.parentID s'.ds := by
  obtain ⟨e0, h1, hsz, h2, h3, h4, h5, h6, hids⟩ := hi
  have e0e : e0 = e := by
    unfold DS.eachOf at h1
    rw [h.parent] at h1
    simp only [Option.bind_some, he, Option.some.injEq] at h1
    exact h1.symm
  subst e0e
  have hfin : ∀ now, (finishedRow t u now).state = .completed := fun _ => hst
  have hmemt : t.id ∈ s.ds.released t.parentID := mem_idsWith.2 ⟨u, h.row, hup, huf⟩
  have hth : t.id ∉ s.ds.held t.parentID := by
    intro hm
    obtain ⟨r, a, _, b⟩ := mem_idsWith.1 hm
    rw [h.row] at a; cases a
    unfold TaskState.inFlight at huf
    rw [b] at huf; simp at huf
  have hprel : t.parentID ∉ s.ds.released t.parentID := by
    intro hm
    obtain ⟨r, a, b, _⟩ := mem_idsWith.1 hm
    rw [h.parent] at a; cases a
    exact hpp b
  have hpheld : t.parentID ∉ s.ds.held t.parentID := by
    intro hm
    obtain ⟨r, a, b, _⟩ := mem_idsWith.1 hm
    rw [h.parent] at a; cases a
    exact hpp b
  by_cases hheld : e0.index < e0.size
  · -- a child is released
    have hheldpos : 0 < (s.ds.held t.parentID).card := by rw [h6]; omega
    obtain ⟨n0, hn0⟩ := Finset.card_pos.1 hheldpos
    obtain ⟨r0, a0, b0, c0⟩ := mem_idsWith.1 hn0
    obtain ⟨q', s'', j', n, now, m1, m2, m3, m4, m5, m6, m7, m8, m9⟩ := C13_release C fuel h hids hpar he hmore (by omega) hheld hps
      ⟨r0, (task?_mem a0).1, b0, c0⟩
    rw [hq] at m4; cases m4
    rw [hx] at m5; cases m5
    have hnrow : s.ds.task? n.id = some n := task?_of_mem hids m1
    have hnt : n.id ≠ t.id := by
      intro e1
      exact hth (mem_idsWith.2 ⟨n, by rw [← e1]; exact hnrow, m2, m3⟩)
    have hnp : n.id ≠ t.parentID := by
      intro e1
      exact hpheld (mem_idsWith.2 ⟨n, by rw [← e1]; exact hnrow, m2, m3⟩)
    have hnheld : n.id ∈ s.ds.held t.parentID := mem_idsWith.2 ⟨n, hnrow, m2, m3⟩
    have hnrel : n.id ∉ s.ds.released t.parentID := by
      intro hm
      obtain ⟨r, a, _, b⟩ := mem_idsWith.1 hm
      rw [hnrow] at a; cases a
      unfold TaskState.inFlight at b
      rw [m3] at b; simp at b
    have rel : s'.ds.released t.parentID = insert n.id ((s.ds.released t.parentID).erase t.id) := by
      ext k
      rw [Finset.mem_insert, Finset.mem_erase]
      unfold DS.released
      rw [mem_idsWith, mem_idsWith, m9]
      by_cases k1 : k = t.id
      · rw [if_pos k1]
        constructor
        · rintro ⟨r, a, -, b⟩
          cases a
          unfold TaskState.inFlight at b
          rw [hfin] at b; simp at b
        · rintro (a | ⟨a, _⟩)
          · exact absurd (a.symm.trans k1) hnt
          · exact absurd k1 a
      · rw [if_neg k1]
        by_cases k2 : k = t.parentID
        · rw [if_pos k2]
          constructor
          · rintro ⟨r, a, b, -⟩
            cases a
            exact absurd b hpp
          · rintro (a | ⟨-, r, a, b, -⟩)
            · exact absurd (a.symm.trans k2) hnp
            · rw [k2, h.parent] at a; cases a; exact absurd b hpp
        · rw [if_neg k2]
          by_cases k3 : k = n.id
          · rw [if_pos k3]
            exact ⟨fun _ => .inl k3, fun _ => ⟨_, rfl, m2, .inl rfl⟩⟩
          · rw [if_neg k3]
            exact ⟨fun a => .inr ⟨k1, a⟩, fun a => (a.resolve_left k3).2⟩
    have hel : s'.ds.held t.parentID = (s.ds.held t.parentID).erase n.id := by
      ext k
      rw [Finset.mem_erase]
      unfold DS.held
      rw [mem_idsWith, mem_idsWith, m9]
      by_cases k1 : k = t.id
      · rw [if_pos k1]
        constructor
        · rintro ⟨r, a, -, b⟩
          cases a
          rw [hfin] at b; cases b
        · rintro ⟨-, b⟩
          exact absurd (mem_idsWith.2 (k1 ▸ b)) hth
      · rw [if_neg k1]
        by_cases k2 : k = t.parentID
        · rw [if_pos k2]
          constructor
          · rintro ⟨r, a, b, -⟩
            cases a
            exact absurd b hpp
          · rintro ⟨-, r, a, b, -⟩
            rw [k2, h.parent] at a; cases a; exact absurd b hpp
        · rw [if_neg k2]
          by_cases k3 : k = n.id
          · rw [if_pos k3]
            refine ⟨?_, fun a => absurd k3 a.1⟩
            rintro ⟨r, a, -, b⟩
            cases a; cases b
          · rw [if_neg k3]
            exact ⟨fun a => ⟨k3, a⟩, fun a => a.2⟩
    refine ⟨{ e0 with completions := e0.completions + 1, index := e0.index + 1 }, ?_, hsz, h2, ?_, hmore, ?_, ?_, hids'⟩
    · unfold DS.eachOf
      rw [m9, if_neg h.other, if_pos rfl]; rfl
    · show e0.index + 1 = _ ; rw [h3]; rfl
    · rw [rel, Finset.card_insert_of_notMem (by
        rw [Finset.mem_erase]; exact fun a => hnrel a.2), Finset.card_erase_of_mem hmemt, h5]
      show _ = min c (e0.size - (e0.completions + 1))
      omega
    · rw [hel, Finset.card_erase_of_mem hnheld, h6]
      show _ = e0.size - min (c + (e0.completions + 1)) e0.size
      omega
  · -- nothing left to release
    obtain ⟨q', s'', j', now, m4, m5, m6, m7, m8, m9⟩ := C12_item C fuel h hpar he hmore (.inr (by omega))
    rw [hq] at m4; cases m4
    rw [hx] at m5; cases m5
    have rel : s'.ds.released t.parentID = (s.ds.released t.parentID).erase t.id := by
      ext k
      rw [Finset.mem_erase]
      unfold DS.released
      rw [mem_idsWith, mem_idsWith, m9]
      by_cases k1 : k = t.id
      · rw [if_pos k1]
        refine ⟨?_, fun a => absurd k1 a.1⟩
        rintro ⟨r, a, -, b⟩
        cases a
        unfold TaskState.inFlight at b
        rw [hfin] at b; simp at b
      · rw [if_neg k1]
        by_cases k2 : k = t.parentID
        · rw [if_pos k2]
          constructor
          · rintro ⟨r, a, b, -⟩
            cases a
            exact absurd b hpp
          · rintro ⟨-, r, a, b, -⟩
            rw [k2, h.parent] at a; cases a; exact absurd b hpp
        · rw [if_neg k2]
          exact ⟨fun a => ⟨k1, a⟩, fun a => a.2⟩
    have hel : s'.ds.held t.parentID = s.ds.held t.parentID := by
      ext k
      unfold DS.held
      rw [mem_idsWith, mem_idsWith, m9]
      by_cases k1 : k = t.id
      · rw [if_pos k1]
        constructor
        · rintro ⟨r, a, -, b⟩
          cases a
          rw [hfin] at b; cases b
        · rintro b
          exact absurd (mem_idsWith.2 (k1 ▸ b)) hth
      · rw [if_neg k1]
        by_cases k2 : k = t.parentID
        · rw [if_pos k2]
          constructor
          · rintro ⟨r, a, b, -⟩
            cases a
            exact absurd b hpp
          · rintro ⟨r, a, b, -⟩
            rw [k2, h.parent] at a; cases a; exact absurd b hpp
        · rw [if_neg k2]
    refine ⟨{ e0 with completions := e0.completions + 1, index := e0.index + 1 }, ?_, hsz, h2, ?_, hmore, ?_, ?_, hids'⟩
    · unfold DS.eachOf
      rw [m9, if_neg h.other, if_pos rfl]; rfl
    · show e0.index + 1 = _ ; rw [h3]; rfl
    · rw [rel, Finset.card_erase_of_mem hmemt, h5]
      show _ = min c (e0.size - (e0.completions + 1))
      omega
    · rw [hel, h6]
      show _ = e0.size - min (c + (e0.completions + 1)) e0.size
      omega

theorem eachInv_run {C : Cfg} {fuel pid c n : Nat} {s0 s : Sys} (hc : 0 < c) (hr : EachRun C fuel pid s0 s) (h0 : EachInv c n pid s0.ds) :
    EachInv c n pid s.ds := by
  induction hr with
  | start => exact h0
  | done _ h1 h2 h3 h4 h5 h6 h7 h8 h9 h10 h11 h12 h13 ih =>
    subst h2
    exact eachInv_done hc ih h1 h3 h4 h5 h6 h7 h8 h9 h10 h11 h12 h13
  | other _ h1 h2 h3 h4 ih =>
    obtain ⟨e, a1, a0, a2, a3, a4, a5, a6, _⟩ := ih
    exact ⟨e, h2.trans a1, a0, a2, a3, a4, h3.trans a5, h4.trans a6, h1⟩

theorem childOf_fields {C : Cfg} {c : Ctx} {t d x : Task} {id : Nat} {st : TaskState} (h : ChildOf C c t d id st x) :
    x.id = id ∧ x.parentID = t.id ∧ x.state = st ∧ x.jobID = t.jobID := by
  obtain ⟨sd, now, g, -, rfl⟩ := h
  exact ⟨rfl, rfl, rfl, rfl⟩

/-- **C13.** An each task over `n > 0` items with concurrency limit `c > 0` is scheduled; then, in every run in which
completions of its children are handled one after the other, as long as the last child has not completed:
* at most `c` children are released and unfinished at any moment;
* there always is at least one such child, i.e. the task never gets stuck with children held back;
* finished, released and held-back children together are all `n` children. -/
theorem C13_limit (C : Cfg) (fuel : Nat) {t u : Task} {e e0 : EachTask Task} {j : Job} {v : Val} {items : List String} {s : Sys}
    (hif : trimSpace t.cond ≠ "false") (hpar : t.parallel = none) (heach : t.each = some e) (hu : s.ds.task? t.id = some u)
    (hj : s.ds.job? t.jobID = some j) (hfresh : ∀ k, s.next ≤ k → s.ds.task? k = none)
    (hlist : ∀ sd, evaluateExpr C.O ⟨j.context, none⟩ sd e.list = .ok v) (hv : v.items = some items)
    (hplain : ∀ w ∈ e.task.cmdWords, ¬ ['{', '{'] <:+: w.toList)
    (hev : ∀ i item, items[i]? = some item → Evaluable C (itemCtx j e i item) e.task)
    (hne : items ≠ []) (hlim : 0 < e.concurrency) (hids : (s.ds.tasks.map (·.id)).Nodup)
    (hu0 : u.each = some e0) (hc0 : e0.concurrency = e.concurrency) (hz : e0.completions = 0)
    (hnone : ∀ r ∈ s.ds.tasks, r.parentID ≠ t.id) :
    ∃ (p : Prog Res) (s1 : Sys), coordinatorHandler C fuel (.task "pending" t) = some p ∧ p.exec s = (some none, s1) ∧
      ∀ s', EachRun C fuel t.id s1 s' →
        (s'.ds.released t.id).card ≤ e.concurrency ∧ 0 < (s'.ds.released t.id).card ∧
        ∃ e', s'.ds.eachOf t.id = some e' ∧ e'.size = items.length ∧
          e'.completions + (s'.ds.released t.id).card + (s'.ds.held t.id).card = items.length := by
  obtain ⟨p, s1, xs, now, h1, h2, h3, h4, h5, h6, h7, h8⟩ := C12_fan_out C fuel hif hpar heach hu hj hfresh hlist hv hplain hev
  have hpos : 0 < items.length := List.length_pos_iff.2 hne
  -- the children
  have hrow : ∀ i (hi : i < items.length), ∃ x, xs[i]? = some x ∧ x.id = s.next + i ∧ x.parentID = t.id ∧
      x.state = (if StartsAtOnce e.concurrency i then .pending else .created) := by
    intro i hi
    obtain ⟨x, a, b⟩ := h4 i items[i] (List.getElem?_eq_getElem hi)
    obtain ⟨b1, b2, b3, _⟩ := childOf_fields b
    exact ⟨x, a, b1, b2, b3⟩
  have hfind : ∀ i (_ : i < items.length), ∃ x, s1.ds.task? (s.next + i) = some (taskRow x) ∧ x.parentID = t.id ∧
      x.state = (if StartsAtOnce e.concurrency i then .pending else .created) := by
    intro i hi
    obtain ⟨x, a, b1, b2, b3⟩ := hrow i hi
    refine ⟨x, ?_, b2, b3⟩
    rw [h7, if_neg (by intro e1; have := hfresh (s.next + i) (by omega); rw [e1, hu] at this; cases this),
      hfresh _ (by omega), Option.none_or]
    have hxmem : taskRow x ∈ xs.map taskRow := List.mem_map.2 ⟨x, List.mem_of_getElem? a, rfl⟩
    have hnd : ((xs.map taskRow).map (·.id)).Nodup := by
      refine List.pairwise_iff_getElem.2 fun a b ha hb hab hh => ?_
      simp only [List.length_map] at ha hb
      obtain ⟨y, y1, y2, _⟩ := hrow a (by omega)
      obtain ⟨z, z1, z2, _⟩ := hrow b (by omega)
      rw [List.getElem?_eq_getElem ha, Option.some.injEq] at y1
      rw [List.getElem?_eq_getElem hb, Option.some.injEq] at z1
      simp only [List.getElem_map] at hh
      have hh : xs[a].id = xs[b].id := hh
      rw [y1, z1] at hh
      omega
    have := find?_of_nodup (·.id) hnd hxmem
    rw [show s.next + i = (taskRow x).id from b1.symm]
    exact this
  have hpt : s1.ds.task? t.id = some (eachStarted now items.length u) := by rw [h7, if_pos rfl]
  -- membership
  have hmem : ∀ k r, s1.ds.task? k = some r → r.parentID = t.id → k = t.id ∨ ∃ i, i < items.length ∧ k = s.next + i := by
    intro k r hr hp
    rw [h7] at hr
    by_cases hk : k = t.id
    · exact .inl hk
    · rw [if_neg hk] at hr
      cases hs : s.ds.task? k with
      | some r' =>
        rw [hs, Option.some_or] at hr
        cases hr
        exact absurd hp (hnone _ (task?_mem hs).1)
      | none =>
        rw [hs, Option.none_or] at hr
        have hm := List.mem_of_find?_eq_some hr
        have hid := List.find?_some hr
        simp only [decide_eq_true_eq] at hid
        obtain ⟨x, x1, x2⟩ := List.mem_map.1 hm
        obtain ⟨i, hi, hxi⟩ := List.getElem_of_mem x1
        obtain ⟨y, y1, y2, _⟩ := hrow i (by omega)
        rw [List.getElem?_eq_getElem hi, Option.some.injEq, hxi] at y1
        refine .inr ⟨i, by omega, ?_⟩
        rw [← hid, ← x2, ← y2, ← y1]
        rfl
  have hupar : (eachStarted now items.length u).parentID ≠ t.id := hnone u (task?_mem hu).1
  have rel : s1.ds.released t.id = (Finset.range (min e.concurrency items.length)).image (s.next + ·) := by
    ext k
    unfold DS.released
    rw [mem_idsWith, Finset.mem_image]
    constructor
    · rintro ⟨r, a, b, c⟩
      rcases hmem k r a b with h0 | ⟨i, hi, h0⟩
      · rw [h0, hpt] at a; cases a; exact absurd b hupar
      · obtain ⟨x, x1, x2, x3⟩ := hfind i hi
        rw [h0, x1] at a
        cases a
        refine ⟨i, Finset.mem_range.2 ?_, h0.symm⟩
        have c : x.state.inFlight := c
        rw [x3] at c
        by_cases hs : StartsAtOnce e.concurrency i
        · unfold StartsAtOnce at hs; omega
        · rw [if_neg hs] at c
          unfold TaskState.inFlight at c
          simp at c
    · rintro ⟨i, hi, rfl⟩
      rw [Finset.mem_range] at hi
      obtain ⟨x, x1, x2, x3⟩ := hfind i (by omega)
      rw [if_pos (by unfold StartsAtOnce; omega)] at x3
      exact ⟨_, x1, x2, .inl x3⟩
  have hel : s1.ds.held t.id = (Finset.range (items.length - min e.concurrency items.length)).image
      (fun i => s.next + (min e.concurrency items.length + i)) := by
    ext k
    unfold DS.held
    rw [mem_idsWith, Finset.mem_image]
    constructor
    · rintro ⟨r, a, b, c⟩
      rcases hmem k r a b with h0 | ⟨i, hi, h0⟩
      · rw [h0, hpt] at a; cases a; exact absurd b hupar
      · obtain ⟨x, x1, x2, x3⟩ := hfind i hi
        rw [h0, x1] at a
        cases a
        have c : x.state = .created := c
        rw [x3] at c
        by_cases hs : StartsAtOnce e.concurrency i
        · rw [if_pos hs] at c; cases c
        · unfold StartsAtOnce at hs
          refine ⟨i - min e.concurrency items.length, Finset.mem_range.2 (by omega), ?_⟩
          show s.next + (min e.concurrency items.length + (i - min e.concurrency items.length)) = k
          omega
    · rintro ⟨i, hi, rfl⟩
      rw [Finset.mem_range] at hi
      obtain ⟨x, x1, x2, x3⟩ := hfind (min e.concurrency items.length + i) (by omega)
      rw [if_neg (by unfold StartsAtOnce; omega)] at x3
      exact ⟨_, x1, x2, x3⟩
  have hinv : EachInv e.concurrency items.length t.id s1.ds := by
    refine ⟨{ e0 with size := items.length, index := e0.concurrency }, ?_, rfl, hc0, ?_, ?_, ?_, ?_, h8 hids⟩
    · unfold DS.eachOf
      rw [hpt]
      show (u.each.map _) = _
      rw [hu0]; rfl
    · show e0.concurrency = _ + e0.completions; rw [hc0, hz]; rfl
    · show e0.completions < items.length; rw [hz]; exact hpos
    · rw [rel, Finset.card_image_of_injective _ (fun a b h => by have h : s.next + a = s.next + b := h; omega), Finset.card_range]
      show _ = min _ (items.length - e0.completions)
      rw [hz]; omega
    · rw [hel, Finset.card_image_of_injective _ (fun a b h => by
        have h : s.next + (min e.concurrency items.length + a) = s.next + (min e.concurrency items.length + b) := h; omega), Finset.card_range]
      show _ = items.length - min (_ + e0.completions) items.length
      rw [hz]; rfl
  refine ⟨p, s1, h1, h2, fun s' hr => ?_⟩
  obtain ⟨e', a1, b2, a2, a3, a4, a5, a6, _⟩ := eachInv_run hlim hr hinv
  refine ⟨by omega, by omega, e', a1, b2, by omega⟩

/-! ## A concrete run -/

namespace ConcurrencyEx
open FanoutEx (cfg)

/-- the state `JoinEx.sys` is a state in the middle of a run (one child finished, one running, one held back, limit 1) … -/
def e : EachTask Task := { list := "list", concurrency := 1, size := 3, completions := 1, index := 2, task := { name := "x" } }
def s0 : Sys := JoinEx.sys none (some e) [{}]
theorem inv0 : EachInv 1 3 5 s0.ds := by
  refine ⟨e, rfl, rfl, rfl, rfl, by decide, ?_, ?_, ?_⟩ <;> decide +kernel

/-- … from which the running child's completion is a step of the run: exactly one child is released again -/
example : ∃ s', EachRun cfg 4 5 s0 s' ∧ (s'.ds.released 5).card = 1 ∧ (s'.ds.held 5).card = 0 := by
  refine ⟨JoinEx.run none (some e) [{}], ?_, by decide +kernel, by decide +kernel⟩
  refine .done (t := JoinEx.report) (u := JoinEx.child) .start (JoinEx.done none (some e) [{}]) rfl rfl rfl (.inr (.inr rfl)) rfl rfl (by decide)
    (by decide) (by decide) rfl ?_ (by decide +kernel)
  refine Prod.ext ?_ rfl
  rfl

end ConcurrencyEx

end Tork
