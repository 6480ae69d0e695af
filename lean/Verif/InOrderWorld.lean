import Verif.InOrderHandlers
import Verif.SafeEnv
/-!
# One task after the other: every ordinary history

The invariant of the order of tasks holds in every world that is reached by ordinary steps only.
-/

namespace Tork.Seq
open Prog

variable {n : Nat} {E : Env}

/-- The rows of the top-level tasks of job `n`. -/
structure Rows (n : Nat) (ds : DS) : Prop where
  cur : ∀ id t, ds.task? id = some t → Top n t → Unfinished t → ∃ j, ds.job? n = some j ∧ t.position = max 1 j.position
  rng : ∀ id t, ds.task? id = some t → Top n t → ∃ j, ds.job? n = some j ∧ 1 ≤ t.position ∧ t.position ≤ max 1 j.position
  one : ∀ id t id' t', ds.task? id = some t → ds.task? id' = some t' → Top n t → Top n t' → t.position = t'.position → id = id'
  full : ∀ j p, ds.job? n = some j → 1 ≤ p → p < j.position → ∃ id t, ds.task? id = some t ∧ Top n t ∧ t.position = p

/-- The rights there are: at most one. -/
structure Rights (n : Nat) (ds : DS) (L : List Tok) : Prop where
  len : L.length ≤ 1
  held : ∀ x ∈ L, x.Held n ds
  turn : ∀ k, Tok.turn k ∈ L → ∀ id t, ds.task? id = some t → Top n t → t.position < max 1 k

theorem Rights.congr {ds : DS} {L L' : List Tok} (h : Rights n ds L) (h1 : L'.length ≤ L.length) (h2 : ∀ x ∈ L', x ∈ L) : Rights n ds L' :=
  ⟨Nat.le_trans h1 h.len, fun x hx => h.held x (h2 x hx), fun k hk => h.turn k (h2 _ hk)⟩

theorem Rights.alone {ds : DS} {x : Tok} {R : List Tok} (h : Rights n ds (x :: R)) : R = [] := by
  have := h.len
  cases R with
  | nil => rfl
  | cons y R => simp at this

theorem same_top (n : Nat) {a b : Task} (h : SameTask a b) : (Top n b ↔ Top n a) ∧ b.position = a.position := by
  have h := h.1
  have h1 := congrArg Task.jobID h
  have h2 := congrArg Task.parentID h
  have h3 := congrArg Task.position h
  dsimp only at h1 h2 h3
  exact ⟨by unfold Top; rw [h1, h2], h3.symm⟩

/-- The rows of a database with no new top-level task of the job. -/
theorem old_row {rok : Nat → Prop} {a b : DS} (hd : DsStep rok a b) (hr : NoNew n a b) {id : Nat} {t' : Task} (h : b.task? id = some t') (ht : Top n t') :
    ∃ t, a.task? id = some t ∧ Top n t ∧ t'.position = t.position := by
  cases ha : a.task? id with
  | none => exact absurd ht (hr id t' ha h)
  | some t =>
    obtain ⟨u, h1, h2, _⟩ := hd.tasks id t ha
    rw [h] at h1; cases h1
    exact ⟨t, rfl, (same_top n h2).1.1 ht, (same_top n h2).2⟩

theorem keep_job {rok : Nat → Prop} {a b : DS} (hd : DsStep rok a b) (hp : SamePos n a b) {j : Job} (h : a.job? n = some j) :
    ∃ j', b.job? n = some j' ∧ j'.position = j.position := by
  obtain ⟨j', h1, _⟩ := hd.jobs n j h
  refine ⟨j', h1, ?_⟩
  rcases hp j' h1 with h2 | ⟨x, h2, h3⟩
  · rw [h] at h2; cases h2
  · rw [h] at h2; cases h2; exact h3

theorem new_job {rok : Nat → Prop} {a b : DS} (hd : DsStep rok a b) (h : a.job? n = none) {j' : Job} (h' : b.job? n = some j') : j'.position = 0 :=
  (hd.newJobs n j' h h').2.1

theorem held_keep {rok : Nat → Prop} {a b : DS} (hd : DsStep rok a b) (hp : SamePos n a b) {x : Tok} (h : x.Held n a) : x.Held n b := by
  cases x with
  | turn k =>
    rcases h with ⟨h1, h2⟩ | ⟨j, h1, h2⟩
    · cases hb : b.job? n with
      | none => exact .inl ⟨hb, h2⟩
      | some j' => exact .inr ⟨j', hb, by rw [new_job hd h1 hb, h2]⟩
    · obtain ⟨j', h3, h4⟩ := keep_job hd hp h1
      exact .inr ⟨j', h3, h4.trans h2⟩
  | started =>
    obtain ⟨j, h1, h2⟩ := h
    obtain ⟨j', h3, h4⟩ := keep_job hd hp h1
    exact ⟨j', h3, h4.trans h2⟩

/-- An unfinished row was unfinished, or is the row of the current position. -/
theorem unfinished_old {rok : Nat → Prop} {a b : DS} (hd : DsStep rok a b) (ho : Ordinary n a b) (h : Rows n a) {id : Nat} {t t' : Task}
    (h1 : a.task? id = some t) (h2 : b.task? id = some t') (ht : Top n t) (hu : Unfinished t') :
    ∃ j, a.job? n = some j ∧ t.position = max 1 j.position := by
  obtain ⟨j, hj, h3, h4⟩ := h.rng id t h1 ht
  refine ⟨j, hj, ?_⟩
  by_cases hk : t.position < j.position
  · by_cases hx : Unfinished t
    · obtain ⟨j', hj', h5⟩ := h.cur id t h1 ht hx
      rw [hj] at hj'; cases hj'; exact h5
    · exact absurd hu (ho.noRevival j id t t' hj h1 h2 ht hk hx)
  · omega

theorem rows_keep {rok : Nat → Prop} {a b : DS} (hd : DsStep rok a b) (ho : Ordinary n a b) (h : Rows n a) (hr : NoNew n a b) (hp : SamePos n a b) :
    Rows n b := by
  have row := fun {id t'} => old_row (n := n) hd hr (id := id) (t' := t')
  refine ⟨fun id t' h1 h2 h3 => ?_, fun id t' h1 h2 => ?_, fun id t' id' u' h1 h2 h3 h4 h5 => ?_, fun j' p h1 h2 h3 => ?_⟩
  · obtain ⟨t, k1, k2, k3⟩ := row h1 h2
    obtain ⟨j, hj, k4⟩ := unfinished_old hd ho h k1 h1 k2 h3
    obtain ⟨j', h6, h7⟩ := keep_job hd hp hj
    exact ⟨j', h6, by rw [k3, k4, h7]⟩
  · obtain ⟨t, k1, k2, k3⟩ := row h1 h2
    obtain ⟨j, hj, k4, k5⟩ := h.rng id t k1 k2
    obtain ⟨j', h6, h7⟩ := keep_job hd hp hj
    exact ⟨j', h6, by rw [k3, h7]; exact ⟨k4, k5⟩⟩
  · obtain ⟨t, k1, k2, k3⟩ := row h1 h3
    obtain ⟨u, l1, l2, l3⟩ := row h2 h4
    exact h.one id t id' u k1 l1 k2 l2 (by omega)
  · rcases hp j' h1 with h4 | ⟨j, h4, h5⟩
    · rw [new_job hd h4 h1] at h3; omega
    · obtain ⟨id, t, k1, k2, k3⟩ := h.full j p h4 h2 (by omega)
      obtain ⟨t', l1, l2, _⟩ := hd.tasks id t k1
      exact ⟨id, t', l1, (same_top n l2).1.2 k2, (same_top n l2).2.trans k3⟩

/-- Every operation keeps the order. -/
theorem move_sound {rok : Nat → Prop} {a b : DS} (hd : DsStep rok a b) (ho : Ordinary n a b) (h : Rows n a)
    (hb : ∀ j, a.job? n = some j → j.state ≠ .pending → j.position ≠ 0) {T T' : Option Tok} {R : List Tok}
    (hR : Rights n a (T.toList ++ R)) (hm : Move n a b T T') : Rows n b ∧ Rights n b (T'.toList ++ R) := by
  have keep : ∀ {L : List Tok}, Rights n a L → NoNew n a b → SamePos n a b → Rights n b L := fun {L} hL hr hp =>
    ⟨hL.len, fun x hx => held_keep hd hp (hL.held x hx), fun k hk id t' h1 h2 => by
      obtain ⟨t, k1, k2, k3⟩ := old_row hd hr h1 h2
      rw [k3]; exact hL.turn k hk id t k1 k2⟩
  cases hm with
  | keep hT hr hp =>
    refine ⟨rows_keep hd ho h hr hp, keep ?_ hr hp⟩
    rcases hT with rfl | rfl
    · exact hR
    · exact hR.congr (by simp) fun x hx => List.mem_append_right _ hx
  | create k hT id t h1 h2 ht hk hu hp hj =>
    have hR' : R = [] := Rights.alone hR
    subst hR'
    have hheld := hR.held _ (List.mem_append_left _ (List.mem_cons_self ..))
    have hbefore := hR.turn k (List.mem_append_left _ (List.mem_cons_self ..))
    obtain ⟨j, hj1, hj2⟩ : ∃ j, a.job? n = some j ∧ j.position = k := by
      rcases hheld with ⟨x, _⟩ | x
      · exact absurd x hj
      · exact x
    obtain ⟨j', hj1', hj2'⟩ := keep_job hd hp hj1
    have row : ∀ {x u'}, b.task? x = some u' → Top n u' →
        x = id ∧ u' = t ∨ x ≠ id ∧ ∃ u, a.task? x = some u ∧ Top n u ∧ u'.position = u.position := by
      intro x u' k1 k2
      cases ha : a.task? x with
      | none =>
        have hx := hu x u' ha k1
        subst hx
        rw [h2] at k1; cases k1
        exact .inl ⟨rfl, rfl⟩
      | some u =>
        have hx : x ≠ id := fun hx => by subst hx; rw [h1] at ha; cases ha
        obtain ⟨v, k3, k4, _⟩ := hd.tasks x u ha
        rw [k1] at k3; cases k3
        exact .inr ⟨hx, u, rfl, (same_top n k4).1.1 k2, (same_top n k4).2⟩
    refine ⟨⟨fun x u' k1 k2 k3 => ?_, fun x u' k1 k2 => ?_, fun x u' y v' k1 k2 k3 k4 k5 => ?_, fun x p k1 k2 k3 => ?_⟩, ?_⟩
    · rcases row k1 k2 with ⟨rfl, rfl⟩ | ⟨hx, u, l1, l2, l3⟩
      · exact ⟨j', hj1', by rw [hk, hj2', hj2]⟩
      · obtain ⟨j2, l4, l5⟩ := unfinished_old hd ho h l1 k1 l2 k3
        rw [hj1] at l4; cases l4
        exact ⟨j', hj1', by rw [l3, l5, hj2']⟩
    · rcases row k1 k2 with ⟨rfl, rfl⟩ | ⟨hx, u, l1, l2, l3⟩
      · exact ⟨j', hj1', by rw [hk]; omega, by rw [hk, hj2', hj2]; exact Nat.le_refl _⟩
      · obtain ⟨j2, l4, l5, l6⟩ := h.rng x u l1 l2
        rw [hj1] at l4; cases l4
        exact ⟨j', hj1', by rw [l3]; exact l5, by rw [l3, hj2']; exact l6⟩
    · rcases row k1 k3 with ⟨rfl, rfl⟩ | ⟨hx, u, l1, l2, l3⟩ <;> rcases row k2 k4 with ⟨rfl, rfl⟩ | ⟨hy, v, m1, m2, m3⟩
      · rfl
      · have := hbefore y v m1 m2; omega
      · have := hbefore x u l1 l2; omega
      · exact h.one x u y v l1 m1 l2 m2 (by omega)
    · rw [hj1'] at k1; cases k1
      obtain ⟨x, u, l1, l2, l3⟩ := h.full j p hj1 k2 (by omega)
      obtain ⟨v, m1, m2, _⟩ := hd.tasks x u l1
      exact ⟨x, v, m1, (same_top n m2).1.2 l2, (same_top n m2).2.trans l3⟩
    · rcases hT with rfl | ⟨rfl, rfl⟩
      · exact ⟨by simp, fun x hx => (by cases hx), fun k hk => (by cases hk)⟩
      · refine ⟨by simp, fun x hx => ?_, fun k hk => ?_⟩
        · rw [List.mem_singleton.1 hx]; exact ⟨j', hj1', hj2'.trans hj2⟩
        · cases List.mem_singleton.1 hk
  | spend hr hp hj =>
    have hR' : R = [] := Rights.alone hR
    subst hR'
    have hheld := hR.held _ (List.mem_append_left _ (List.mem_cons_self ..))
    obtain ⟨j, hj1, hj2⟩ : ∃ j, a.job? n = some j ∧ j.position = 0 := by
      rcases hheld with ⟨x, _⟩ | x
      · exact absurd x hj
      · exact x
    obtain ⟨j', hj1', hj2'⟩ := keep_job hd hp hj1
    refine ⟨rows_keep hd ho h hr hp, by simp, fun x hx => ?_, fun k hk => ?_⟩
    · rw [List.mem_singleton.1 hx]; exact ⟨j', hj1', hj2'.trans hj2⟩
    · cases List.mem_singleton.1 hk
  | start j j' hr h1 h2 hp =>
    have hR' : R = [] := Rights.alone hR
    subst hR'
    obtain ⟨j0, hj1, hj2⟩ := hR.held _ (List.mem_append_left _ (List.mem_cons_self ..))
    rw [h1] at hj1; cases hj1
    refine ⟨⟨fun x u' k1 k2 k3 => ?_, fun x u' k1 k2 => ?_, fun x u' y v' k1 k2 k3 k4 k5 => ?_, fun x p k1 k2 k3 => ?_⟩, by simp,
      fun x hx => (by cases hx), fun k hk => (by cases hk)⟩
    · obtain ⟨t, l1, l2, l3⟩ := old_row hd hr k1 k2
      obtain ⟨j2, l4, l5⟩ := unfinished_old hd ho h l1 k1 l2 k3
      rw [h1] at l4; cases l4
      exact ⟨j', h2, by omega⟩
    · obtain ⟨t, l1, l2, l3⟩ := old_row hd hr k1 k2
      obtain ⟨j2, l4, l5, l6⟩ := h.rng x t l1 l2
      rw [h1] at l4; cases l4
      exact ⟨j', h2, by omega, by omega⟩
    · obtain ⟨t, l1, l2, l3⟩ := old_row hd hr k1 k3
      obtain ⟨u, m1, m2, m3⟩ := old_row hd hr k2 k4
      exact h.one _ _ _ _ l1 m1 l2 m2 (by omega)
    · rw [h2] at k1; cases k1; omega
  | advance j j' hr h1 h2 hs hp hT =>
    have hst : j.state ≠ .pending ∧ ∃ tid c c', a.task? tid = some c ∧ b.task? tid = some c' ∧ Top n c ∧ Finishes c c' := by
      rcases hd.advance n j j' h1 h2 (by omega) with ⟨k1, _, k3, _⟩ | ⟨k1, _, tid, c, c', k2, k3, k4, k5, k6, _⟩
      · rw [hs, k1] at k3; cases k3
      · exact ⟨k1, tid, c, c', k2, k3, ⟨k4, k5⟩, k6⟩
    obtain ⟨hnp, tid, c, c', c1, c2, c3, c4⟩ := hst
    have hpos := hb j h1 hnp
    obtain ⟨id, t, t', e1, e2, e3, e4, e5⟩ : ∃ id t t', Ends n a b id t t' := by
      by_cases hu : Unfinished c
      · refine ⟨tid, c, c', c1, c2, c3, hu, fun hx => ?_⟩
        obtain ⟨_, f1, f2⟩ := c4
        rcases hx with hx | hx | hx | hx | ⟨hx, hy⟩
        · rcases f1 with f1 | f1 <;> rw [f1] at hx <;> cases hx
        · rcases f1 with f1 | f1 <;> rw [f1] at hx <;> cases hx
        · rcases f1 with f1 | f1 <;> rw [f1] at hx <;> cases hx
        · rcases f1 with f1 | f1 <;> rw [f1] at hx <;> cases hx
        · rw [hy] at f2; cases f2
      · have : c.state = .skipped ∧ c.completedAt.isSome := by
          rcases c4.1 with k | k | k
          · exact absurd (.inr (.inr (.inr (.inl k)))) hu
          · exact absurd (.inr (.inr (.inl k))) hu
          · refine ⟨k, ?_⟩
            cases hc : c.completedAt with
            | none => exact absurd (.inr (.inr (.inr (.inr ⟨k, hc⟩)))) hu
            | some x => rfl
        exact ho.noEcho j j' tid c h1 h2 (by omega) c1 c3 this.1 this.2
    obtain ⟨j0, g1, g2⟩ := h.cur id t e1 e3 e4
    rw [h1] at g1; cases g1
    have hnil : T.toList ++ R = [] := by
      match hL : T.toList ++ R with
      | [] => rfl
      | x :: L =>
        rw [hL] at hR
        cases x with
        | turn k =>
          have := hR.turn k (List.mem_cons_self ..) id t e1 e3
          rcases hR.held _ (List.mem_cons_self ..) with ⟨g1, _⟩ | ⟨j0, g1, g3⟩
          · rw [h1] at g1; cases g1
          · rw [h1] at g1; cases g1
            omega
        | started =>
          obtain ⟨j0, g1, g3⟩ := hR.held _ (List.mem_cons_self ..)
          rw [h1] at g1; cases g1
          exact absurd g3 hpos
    have hR' : R = [] := (List.append_eq_nil_iff.1 hnil).2
    subst hR'
    have unf : ∀ {x u'}, b.task? x = some u' → Top n u' → ¬ Unfinished u' := by
      intro x u' k1 k2 k3
      obtain ⟨u, l1, l2, l3⟩ := old_row hd hr k1 k2
      obtain ⟨j2, l4, l5⟩ := unfinished_old hd ho h l1 k1 l2 k3
      rw [h1] at l4; cases l4
      have hx := h.one x u id t l1 e1 l2 e3 (by omega)
      subst hx
      rw [e2] at k1; cases k1
      exact e5 k3
    have low : ∀ {x u'}, b.task? x = some u' → Top n u' → 1 ≤ u'.position ∧ u'.position ≤ j.position := by
      intro x u' k1 k2
      obtain ⟨u, l1, l2, l3⟩ := old_row hd hr k1 k2
      obtain ⟨j2, l4, l5, l6⟩ := h.rng x u l1 l2
      rw [h1] at l4; cases l4
      omega
    refine ⟨⟨fun x u' k1 k2 k3 => absurd k3 (unf k1 k2), fun x u' k1 k2 => ?_, fun x u' y v' k1 k2 k3 k4 k5 => ?_, fun x p k1 k2 k3 => ?_⟩, ?_⟩
    · have := low k1 k2
      exact ⟨j', h2, by omega, by omega⟩
    · obtain ⟨t, l1, l2, l3⟩ := old_row hd hr k1 k3
      obtain ⟨u, m1, m2, m3⟩ := old_row hd hr k2 k4
      exact h.one _ _ _ _ l1 m1 l2 m2 (by omega)
    · rw [h2] at k1; cases k1
      have : ∃ id t, a.task? id = some t ∧ Top n t ∧ t.position = p := by
        by_cases hpj : p = j.position
        · exact ⟨id, t, e1, e3, by omega⟩
        · exact h.full j p h1 k2 (by omega)
      obtain ⟨x, u, l1, l2, l3⟩ := this
      obtain ⟨v, m1, m2, _⟩ := hd.tasks x u l1
      exact ⟨x, v, m1, (same_top n m2).1.2 l2, (same_top n m2).2.trans l3⟩
    · rcases hT with rfl | rfl
      · exact ⟨by simp, fun x hx => (by cases hx), fun k hk => (by cases hk)⟩
      · refine ⟨by simp, fun x hx => ?_, fun k hk id t k1 k2 => ?_⟩
        · rw [List.mem_singleton.1 hx]; exact .inr ⟨j', h2, rfl⟩
        · cases List.mem_singleton.1 hk
          have := low k1 k2
          omega

/-- All rights: those of the goroutines and those of the messages. -/
def rights (n : Nat) (ann : List (Option Tok)) (ms : List Msg) : List Tok :=
  ann.flatMap Option.toList ++ ms.flatMap fun m => (tokOf n m).toList

structure SInv (n : Nat) (w : World) (ann : List (Option Tok)) : Prop where
  rows : Rows n w.ds
  threads : All2 (Good n) w.threads ann
  right : Rights n w.ds (rights n ann w.msgs)
  bound : rights n ann w.msgs ≠ [] → n < w.next


theorem rights_split (oa ob : List (Option Tok)) (T : Option Tok) (ms : List Msg) {ds : DS} :
    Rights n ds (rights n (oa ++ T :: ob) ms) ↔ Rights n ds (T.toList ++ rights n (oa ++ ob) ms) := by
  have hl : (rights n (oa ++ T :: ob) ms).length = (T.toList ++ rights n (oa ++ ob) ms).length := by
    simp only [rights, List.flatMap_append, List.flatMap_cons, List.length_append]; omega
  have hm : ∀ x, x ∈ rights n (oa ++ T :: ob) ms ↔ x ∈ T.toList ++ rights n (oa ++ ob) ms := fun x => by
    simp only [rights, List.flatMap_append, List.flatMap_cons, List.mem_append]; grind
  exact ⟨fun h => h.congr (Nat.le_of_eq hl.symm) fun x => (hm x).2, fun h => h.congr (Nat.le_of_eq hl) fun x => (hm x).1⟩

theorem rights_ne (oa ob : List (Option Tok)) (T : Option Tok) (ms : List Msg) :
    rights n (oa ++ T :: ob) ms ≠ [] ↔ T ≠ none ∨ rights n (oa ++ ob) ms ≠ [] := by
  cases T <;> simp [rights, List.flatMap_append, List.flatMap_cons] <;> grind

theorem rights_quiet {ann : List (Option Tok)} {ms ms' : List Msg} (h : ∀ m ∈ ms', startsFor n m = false) :
    rights n ann (ms ++ ms') = rights n ann ms := by
  have : (ms'.flatMap fun m => (tokOf n m).toList) = [] := by
    rw [List.flatMap_eq_nil_iff]
    intro m hm
    rw [tokOf, h m hm]; rfl
  rw [rights, rights, List.flatMap_append, this, List.append_nil]

/-- A goroutine of the system performs an operation that does not touch the database. -/
theorem SInv.quiet {w : World} {oa ob : List (Option Tok)} {a b : List (Prog Unit)} {p' : Prog Unit} {T : Option Tok} {ms : List Msg} {nx : Nat}
    (hr : Rows n w.ds) (h1 : All2 (Good n) a oa) (h3 : All2 (Good n) b ob) (hg : Good n p' T)
    (hR : Rights n w.ds (rights n (oa ++ T :: ob) ms)) (hb : rights n (oa ++ T :: ob) ms ≠ [] → n < nx) :
    ∃ ann, SInv n { ds := w.ds, msgs := ms, threads := a ++ p' :: b, next := nx } ann :=
  ⟨_, hr, all2_append h1 (.cons hg h3), hR, hb⟩

theorem pub_rights {oa ob : List (Option Tok)} {T : Option Tok} {m : Msg} {ms : List Msg} {ds : DS} (hm : startsFor n m = true → T = some (.turn 0))
    (h : Rights n ds (rights n (oa ++ T :: ob) ms)) : Rights n ds (rights n (oa ++ (if startsFor n m then none else T) :: ob) (ms ++ [m])) := by
  cases hs : startsFor n m with
  | false =>
    rw [if_neg nofun, rights_quiet fun x hx => by rw [List.mem_singleton.1 hx]; exact hs]
    exact h
  | true =>
    cases hm hs
    rw [if_pos rfl]
    refine h.congr (Nat.le_of_eq ?_) fun x => ?_
    · simp [rights, tokOf, hs, List.flatMap_append, List.flatMap_cons]; omega
    · simp only [rights, tokOf, hs, List.flatMap_append, List.flatMap_cons, List.flatMap_nil, List.mem_append]; simp; grind

theorem pub_ne {oa ob : List (Option Tok)} {T : Option Tok} {m : Msg} {ms : List Msg} (hm : startsFor n m = true → T = some (.turn 0))
    (h : rights n (oa ++ (if startsFor n m then none else T) :: ob) (ms ++ [m]) ≠ []) : rights n (oa ++ T :: ob) ms ≠ [] := by
  cases hs : startsFor n m with
  | false =>
    rw [hs, if_neg nofun, rights_quiet fun x hx => by rw [List.mem_singleton.1 hx]; exact hs] at h
    exact h
  | true =>
    cases hm hs
    exact (rights_ne _ _ _ _).2 (.inl nofun)

theorem sinv_step (hE : E.WellFormed) {w w' : World} {ann : List (Option Tok)} (h : SInv n w ann) (hw : Reachable E w) (hs : Step E w w')
    (ho : Ordinary n w.ds w'.ds) : ∃ ann', SInv n w' ann' := by
  obtain ⟨toks, G, hi⟩ := reachable_winv (env_safe hE) hw
  have hd := reachable_step (env_safe hE) hw hs
  have hb : ∀ j, w.ds.job? n = some j → j.state ≠ .pending → j.position ≠ 0 := fun j hj => (hi.db.jobs n j hj).began
  have hdel : ∀ {a b : List Msg} {m : Msg}, w.msgs = a ++ m :: b → Rights n w.ds (rights n (ann ++ [tokOf n m]) (a ++ b)) ∧
      (rights n (ann ++ [tokOf n m]) (a ++ b) ≠ [] → n < w.next) := fun {a b m} hm => by
    have h1 := h.right
    have h2 := h.bound
    rw [hm] at h1 h2
    have hmem : ∀ x, x ∈ rights n (ann ++ [tokOf n m]) (a ++ b) ↔ x ∈ rights n ann (a ++ m :: b) := fun x => by
      simp only [rights, List.flatMap_append, List.flatMap_cons, List.flatMap_nil, List.mem_append]; grind
    refine ⟨h1.congr (Nat.le_of_eq ?_) fun x => (hmem x).1, fun hne => h2 fun hnil => hne ?_⟩
    · simp only [rights, List.flatMap_append, List.flatMap_cons, List.flatMap_nil, List.length_append]; simp; omega
    · refine List.eq_nil_iff_forall_not_mem.2 fun x hx => ?_
      rw [hmem, hnil] at hx; cases hx
  have hsub : ∀ {a b : List Msg} {m : Msg}, w.msgs = a ++ m :: b → Rights n w.ds (rights n ann (a ++ b)) ∧
      (rights n ann (a ++ b) ≠ [] → n < w.next) := fun {a b m} hm => by
    obtain ⟨h1, h2⟩ := hdel hm
    rw [show ann ++ [tokOf n m] = ann ++ tokOf n m :: [] from rfl] at h1 h2
    rw [rights_split, List.append_nil] at h1
    rw [rights_ne, List.append_nil] at h2
    exact ⟨h1.congr (by simp) fun x hx => List.mem_append_right _ hx, fun hne => h2 (.inr hne)⟩
  cases hs with
  | op a b p p' ds' ms n' ht hp =>
    have hth := h.threads
    rw [ht] at hth
    obtain ⟨oa, T, ob, rfl, h1, h2, h3⟩ := all2_split hth
    have hR := (rights_split oa ob T w.msgs).1 h.right
    have held : ∀ x, T = some x → x.Held n w.ds := fun x hx => hR.held x (by rw [hx]; exact List.mem_append_left _ (List.mem_cons_self ..))
    have go : ∀ {γ : Type} {op : DbOp γ} {k : Except Err γ → Prog Unit} {r ds' ms}, Good n (.db op k) T → Origin.Outcome op w.ds r ds' ms →
        Ordinary n w.ds ds' → DsStep E.restartOK w.ds ds' →
        ∃ o', SInv n { ds := ds', msgs := w.msgs ++ ms, threads := a ++ k r :: b, next := w.next } o' := by
      intro γ op k r ds' ms hg hoc ho hd
      obtain ⟨hq, T', hm, hk⟩ := hg w.ds r ds' ms held hoc ho
      obtain ⟨g1, g2⟩ := move_sound hd ho h.rows hb hR hm
      have hne : T' ≠ none → T ≠ none ∨ w.ds.job? n ≠ none := fun hT' => by
        cases hm with
        | keep hT _ _ =>
          rcases hT with hT | hT
          · exact .inl (hT ▸ hT')
          · exact absurd hT hT'
        | create => exact .inl nofun
        | spend => exact .inl nofun
        | start => exact .inl nofun
        | advance j j' _ e _ _ _ _ => exact .inr (by rw [e]; exact nofun)
      refine ⟨oa ++ T' :: ob, g1, all2_append h1 (.cons hk h3), ?_, ?_⟩
      · rw [rights_quiet hq]; exact (rights_split _ _ _ _).2 g2
      · rw [rights_quiet hq, rights_ne]
        have hbd := h.bound
        rw [rights_ne] at hbd
        rintro (hT' | hr)
        · rcases hne hT' with hT | hj
          · exact hbd (.inl hT)
          · cases hj' : w.ds.job? n with
            | none => exact absurd hj' hj
            | some j => exact hi.fresh n j hj'
        · exact hbd (.inr hr)
    have hbd := h.bound
    cases hp with
    | dbOk op k => exact go h2 .ok ho hd
    | dbFail op k _ _ e => exact go h2 (.fail e) ho hd
    | dbLost op k _ _ e => exact go h2 (.lost e) ho hd
    | dbPartial op k _ _ e x hx => exact go h2 (.part e x hx) ho hd
    | pubOk m k =>
      exact SInv.quiet h.rows h1 h3 (h2.2 _) (pub_rights h2.1 h.right) fun hne => hbd (pub_ne h2.1 hne)
    | pubLost m k _ _ e =>
      exact SInv.quiet h.rows h1 h3 (h2.2 _) (pub_rights h2.1 h.right) fun hne => hbd (pub_ne h2.1 hne)
    | pubFail m k _ _ e =>
      rw [List.append_nil]
      have hT' : (if startsFor n m then none else T) = T ∨ (if startsFor n m then none else T) = none := by
        split
        · exact .inr rfl
        · exact .inl rfl
      refine SInv.quiet h.rows h1 h3 (h2.2 _) ((rights_split _ _ _ _).2 ?_) fun hne => hbd ?_
      · rcases hT' with e | e
        · rw [e]; exact hR
        · rw [e]; exact hR.congr (by simp) fun x hx => List.mem_append_right _ hx
      · rw [rights_ne] at hne ⊢
        rcases hne with hne | hne
        · rcases hT' with e | e
          · rw [e] at hne; exact .inl hne
          · exact absurd e hne
        · exact .inr hne
    | nondet k _ _ x =>
      rw [List.append_nil]
      exact SInv.quiet h.rows h1 h3 (h2 x) h.right hbd
    | uuid k =>
      rw [List.append_nil]
      have hT : T ≠ none → w.next ≠ n := fun hT => by
        have := hbd ((rights_ne _ _ _ _).2 (.inl hT)); omega
      have hg := h2 w.next hi.next hT
      by_cases hn : w.next = n
      · rw [if_pos hn] at hg
        have hnil : rights n (oa ++ ob) w.msgs = [] := by
          cases hr : rights n (oa ++ ob) w.msgs with
          | nil => rfl
          | cons x l =>
            have := hbd ((rights_ne _ _ _ _).2 (.inr (by rw [hr]; exact nofun)))
            omega
        have hj : w.ds.job? n = none := by
          cases hj : w.ds.job? n with
          | none => rfl
          | some j => have := hi.fresh n j hj; omega
        refine SInv.quiet h.rows h1 h3 hg ((rights_split _ _ _ _).2 ?_) fun _ => by omega
        rw [hnil]
        refine ⟨by simp, fun x hx => ?_, fun k hk id t k1 k2 => ?_⟩
        · rw [List.mem_singleton.1 hx]; exact .inl ⟨hj, rfl⟩
        · obtain ⟨j, k3, _⟩ := h.rows.rng id t k1 k2
          rw [hj] at k3; cases k3
      · rw [if_neg hn] at hg
        exact SInv.quiet h.rows h1 h3 hg h.right fun hne => Nat.lt_succ_of_lt (hbd hne)
  | crash a b p ht =>
    have hth := h.threads
    rw [ht] at hth
    obtain ⟨oa, T, ob, rfl, h1, h2, h3⟩ := all2_split hth
    exact ⟨oa ++ ob, h.rows, all2_append h1 h3, ((rights_split oa ob T w.msgs).1 h.right).congr (by simp) fun x hx => List.mem_append_right _ hx,
      fun hne => h.bound ((rights_ne _ _ _ _).2 (.inr hne))⟩
  | deliver a b m p hm hp =>
    obtain ⟨g1, g2⟩ := hdel hm
    have hnz : ∀ t, m = .task QUEUE_PENDING t → t.id ≠ 0 := fun t ht => by
      have := hi.msgs m (by rw [hm]; simp)
      rw [ht] at this
      exact (hi.db.ghost _ _ this.1.st).nz
    exact ⟨_, h.rows, all2_append h.threads (.cons (Good.bind (good_coordinator _ _ m hnz hp) fun _ => good_ret) .nil), g1, g2⟩
  | work a b q t r hm hq hr =>
    obtain ⟨g1, g2⟩ := hdel hm
    exact ⟨_, h.rows, all2_append h.threads (.cons (Good.bind (good_work _ r t) fun _ => good_ret) .nil), g1, g2⟩
  | redeliver a b q t hm hq =>
    obtain ⟨g1, g2⟩ := hsub hm
    have e : rights n ann (a ++ b ++ [Msg.task QUEUE_REDELIVERIES t]) = rights n ann (a ++ b) :=
      rights_quiet fun m hm => by rw [List.mem_singleton.1 hm]; rfl
    exact ⟨ann, h.rows, h.threads, e ▸ g1, e ▸ g2⟩
  | lose a b m hm => exact ⟨ann, h.rows, h.threads, (hsub hm).1, (hsub hm).2⟩
  | dup m hm hsj =>
    have e : rights n ann (w.msgs ++ [m]) = rights n ann w.msgs := rights_quiet fun x hx => by
      rw [List.mem_singleton.1 hx]
      cases m with
      | job j =>
        have : j.state ≠ .pending := by simpa [Msg.startsJob] using hsj
        simp [startsFor, this]
      | _ => rfl
    exact ⟨ann, h.rows, h.threads, e ▸ h.right, e ▸ h.bound⟩
  | spawn p hp =>
    have e : rights n (ann ++ [none]) w.msgs = rights n ann w.msgs := by simp [rights]
    exact ⟨_, h.rows, all2_append h.threads (.cons (good_spawn hp) .nil), e ▸ h.right, e ▸ h.bound⟩
  | nodes ns hq => exact ⟨ann, ⟨h.rows.cur, h.rows.rng, h.rows.one, h.rows.full⟩, h.threads, ⟨h.right.len, h.right.held, h.right.turn⟩, h.bound⟩

theorem sinv_init : SInv n {} [] :=
  have ht : ∀ id t, ({} : World).ds.task? id = some t → False := fun _ _ h => Option.noConfusion rfl (heq_of_eq h)
  have hj : ∀ t, ({} : World).ds.job? n = some t → False := fun _ h => Option.noConfusion rfl (heq_of_eq h)
  ⟨⟨fun _ _ h => (ht _ _ h).elim, fun _ _ h => (ht _ _ h).elim, fun _ _ _ _ h => (ht _ _ h).elim, fun _ _ h => (hj _ h).elim⟩, .nil,
    ⟨Nat.zero_le _, fun _ h => absurd h List.not_mem_nil, fun _ h => absurd h List.not_mem_nil⟩, fun h => absurd rfl h⟩

/-- The step that moves the job beyond a task ends this task and records its result. -/
theorem advances {rok : Nat → Prop} {a b : DS} (hd : DsStep rok a b) (ho : Ordinary n a b) (h : Rows n a)
    (hb : ∀ j, a.job? n = some j → j.state ≠ .pending → j.position ≠ 0) {j j' : Job} (h1 : a.job? n = some j) (h2 : b.job? n = some j')
    (hne : j'.position ≠ j.position) : (j.position = 0 ∧ j'.position = 1 ∧ j'.context = j.context) ∨
      j.position ≠ 0 ∧ j'.position = j.position + 1 ∧ ∃ id t t' r, (Ends n a b id t t' ∧ Finishes t t') ∧ t.position = j.position ∧ t'.result = sanitizeString r ∧
        j'.context = recordIn j.context t.var r ∧ ∀ x, x ≠ id → b.task? x = a.task? x := by
  rcases hd.advance n j j' h1 h2 hne with ⟨k1, k2, k3, k4, k5⟩ | ⟨k1, k0, tid, c, c', k2, k3, k4, k5, k6, k7, r, k8, k9⟩
  · exact .inl ⟨k2, k4, k5⟩
  · have hpos := hb j h1 k1
    refine .inr ⟨hpos, k0, tid, c, c', r, ?_⟩
    have hend : Ends n a b tid c c' := by
      by_cases hu : Unfinished c
      · refine ⟨k2, k3, ⟨k4, k5⟩, hu, fun hx => ?_⟩
        obtain ⟨_, f1, f2⟩ := k6
        rcases hx with hx | hx | hx | hx | ⟨hx, hy⟩
        · rcases f1 with f1 | f1 <;> rw [f1] at hx <;> cases hx
        · rcases f1 with f1 | f1 <;> rw [f1] at hx <;> cases hx
        · rcases f1 with f1 | f1 <;> rw [f1] at hx <;> cases hx
        · rcases f1 with f1 | f1 <;> rw [f1] at hx <;> cases hx
        · rw [hy] at f2; cases f2
      · have hc : c.state = .skipped ∧ c.completedAt.isSome := by
          rcases k6.1 with k | k | k
          · exact absurd (.inr (.inr (.inr (.inl k)))) hu
          · exact absurd (.inr (.inr (.inl k))) hu
          · refine ⟨k, ?_⟩
            cases hc : c.completedAt with
            | none => exact absurd (.inr (.inr (.inr (.inr ⟨k, hc⟩)))) hu
            | some x => rfl
        obtain ⟨id, t, t', e1, e2, e3, e4, e5⟩ := ho.noEcho j j' tid c h1 h2 hne k2 ⟨k4, k5⟩ hc.1 hc.2
        by_cases hid : id = tid
        · subst hid; rw [k2] at e1; cases e1; exact absurd e4 hu
        · rw [k7 id hid, e1] at e2; cases e2; exact absurd e4 e5
    obtain ⟨j0, g1, g2⟩ := h.cur tid c k2 ⟨k4, k5⟩ hend.2.2.2.1
    rw [h1] at g1; cases g1
    exact ⟨⟨hend, k6⟩, by omega, k8, k9, k7⟩

theorem OrdRun.reachable {l : List (World × World)} {w : World} (h : OrdRun E n l w) : Reachable E w := by
  induction h with
  | init => exact .refl _
  | step _ hs _ ih => exact .tail ih hs

theorem OrdRun.sinv (hE : E.WellFormed) {l : List (World × World)} {w : World} (h : OrdRun E n l w) : ∃ ann, SInv n w ann := by
  induction h with
  | init => exact ⟨_, sinv_init⟩
  | step h hs ho ih =>
    obtain ⟨ann, hi⟩ := ih
    exact sinv_step hE hi h.reachable hs ho

theorem OrdRun.rows (hE : E.WellFormed) {l : List (World × World)} {w : World} (h : OrdRun E n l w) : Rows n w.ds :=
  (h.sinv hE).elim fun _ h => h.rows

theorem began (hE : E.WellFormed) {w : World} (hw : Reachable E w) (j : Job) (hj : w.ds.job? n = some j) (hs : j.state ≠ .pending) : j.position ≠ 0 := by
  obtain ⟨toks, G, hi⟩ := reachable_winv (env_safe hE) hw
  exact (hi.db.jobs n j hj).began hs

end Tork.Seq
