import Verif.Props.Completion
import Mathlib.Data.Rat.Floor
import Mathlib.Tactic.Linarith
import Mathlib.Tactic.FieldSimp
/-!
# C07 — the progress of a job

Floating point numbers are modelled by rationals (`Handlers.lean`), so these statements are about exact arithmetic.
-/

namespace Tork
open Prog

theorem round2_mono {x y : Rat} (h : x ≤ y) : round2 x ≤ round2 y := by
  unfold round2
  have h1 : (x * 100 + 1/2).floor ≤ (y * 100 + 1/2).floor := by
    rw [Rat.le_floor_iff]
    have := Rat.floor_le (x * 100 + 1/2)
    linarith
  have : ((x * 100 + 1/2).floor : Rat) ≤ ((y * 100 + 1/2).floor : Rat) := by exact_mod_cast h1
  linarith

theorem round2_int (n : Int) : round2 (n : Rat) = n := by
  unfold round2
  have : ((n : Rat) * 100 + 1/2).floor = n * 100 := by
    apply le_antisymm
    · have h : ((n : Rat) * 100 + 1/2).floor < n * 100 + 1 := by
        rw [Rat.floor_lt_iff]
        push_cast
        linarith
      omega
    · rw [Rat.le_floor_iff]; push_cast; linarith
  rw [this]; push_cast; linarith

theorem round2_hundred : round2 100 = 100 := round2_int 100
theorem round2_zero : round2 0 = 0 := round2_int 0

/-- `round2 x` is the nearest multiple of 1/100. -/
theorem round2_near (x : Rat) : x - 1/200 < round2 x ∧ round2 x ≤ x + 1/200 := by
  unfold round2
  have h1 := Rat.floor_le (x * 100 + 1/2)
  have h2 := Rat.lt_floor_add_one (x * 100 + 1/2)
  push_cast at h2
  constructor <;> linarith

theorem frac_le {a n : Rat} (ha : 0 ≤ a) (hn : 0 < n) (h : a ≤ n) : 0 ≤ a / n * 100 ∧ a / n * 100 ≤ 100 := by
  have h1 : 0 ≤ a / n := div_nonneg ha (le_of_lt hn)
  have h2 : a / n ≤ 1 := (div_le_one hn).2 h
  constructor <;> linarith

theorem frac_mono {a b n : Rat} (hn : 0 < n) (h : a ≤ b) : a / n * 100 ≤ b / n * 100 := by
  have : a / n ≤ b / n := div_le_div_of_nonneg_right h (le_of_lt hn)
  linarith

/-- **C07 (completions).** When a top-level task of a job finishes (any of the effects `Advanced` of `C05_next_task` and
`C06_last_task`) while the job stands at one of its tasks, the progress recorded is a percentage; it is 100 when that was
the last task; and for a job of fewer than 20000 tasks it is 100 *only* then (beyond that the rounding to two digits
reports 99.995% as 100). -/
theorem C07_completion_percentage {t : Task} {j j' : Job} (h : Advanced t j j') (h1 : 1 ≤ j.position)
    (h2 : j.position ≤ j.taskCount) :
    0 ≤ j'.progress ∧ j'.progress ≤ 100 ∧ (j.position = j.taskCount → j'.progress = 100) ∧
    (j.taskCount < 20000 → j'.progress = 100 → j.position = j.taskCount) := by
  have hn : (0 : Rat) < (j.taskCount : Rat) := by exact_mod_cast (by omega : 0 < j.taskCount)
  have hp : (0 : Rat) ≤ (j.position : Rat) := by exact_mod_cast Nat.zero_le _
  have hle : (j.position : Rat) ≤ (j.taskCount : Rat) := by exact_mod_cast h2
  obtain ⟨a, b⟩ := frac_le hp hn hle
  rw [h.progress]
  refine ⟨?_, ?_, ?_, ?_⟩
  · rw [← round2_zero]; exact round2_mono a
  · exact le_trans (round2_mono b) (le_of_eq round2_hundred)
  · intro he
    rw [he, div_self (ne_of_gt hn), one_mul, round2_hundred]
  · intro hs he
    by_contra hne
    have hlt : (j.position : Rat) + 1 ≤ (j.taskCount : Rat) := by exact_mod_cast (by omega : j.position + 1 ≤ j.taskCount)
    have hs' : (j.taskCount : Rat) < 20000 := by exact_mod_cast hs
    have h3 := (round2_near ((j.position : Rat) / (j.taskCount : Rat) * 100)).2
    rw [he] at h3
    have h4 : (j.position : Rat) / (j.taskCount : Rat) ≤ 1 - 1 / (j.taskCount : Rat) := by
      rw [le_sub_iff_add_le, ← add_div, div_le_one hn]; exact hlt
    have h5 : (1 : Rat) / 20000 < 1 / (j.taskCount : Rat) := one_div_lt_one_div_of_lt hn hs'
    linarith

/-- **C07 (order).** Of two recordings of completions of the same job (same number of tasks) the one at the later
position has the greater or equal progress. -/
theorem C07_completion_monotone {t1 t2 : Task} {j1 j1' j2 j2' : Job} (h1 : Advanced t1 j1 j1') (h2 : Advanced t2 j2 j2')
    (hn : 0 < j1.taskCount) (he : j1.taskCount = j2.taskCount) (hle : j1.position ≤ j2.position) :
    j1'.progress ≤ j2'.progress := by
  rw [h1.progress, h2.progress, ← he]
  exact round2_mono (frac_mono (by exact_mod_cast hn) (by exact_mod_cast hle))

/-- **C07 (reports).** A progress report on a known task, whatever value it carries (also negative or above 100): the
task's row gets the value limited to [0,100]; the job's row gets a percentage, which is at least the progress recorded when
the previous task finished and at most the one that will be recorded when the current task finishes. Nothing else changes
and nothing is sent. -/
theorem C07_report (C : Cfg) (fuel : Nat) {t u : Task} {j : Job} {s : Sys} (hu : s.ds.task? t.id = some u)
    (hj : s.ds.job? t.jobID = some j) (h1 : 1 ≤ j.position) (h2 : j.position ≤ j.taskCount) :
    ∃ (p : Prog Res) (s' : Sys) (v w : Rat),
      coordinatorHandler C fuel (.progress t) = some p ∧ p.exec s = (some none, s') ∧
      0 ≤ v ∧ v ≤ 100 ∧ (0 ≤ t.progress → t.progress ≤ 100 → v = t.progress) ∧
      0 ≤ w ∧ w ≤ 100 ∧ (∀ (t0 : Task) (j0 j0' : Job), Advanced t0 j0 j0' → j0.taskCount = j.taskCount →
        (j0.position + 1 ≤ j.position → j0'.progress ≤ w) ∧ (j.position ≤ j0.position → w ≤ j0'.progress)) ∧
      s'.out = s.out ∧ (∀ k, s'.ds.task? k = if k = t.id then some { resave u with progress := v } else s.ds.task? k) ∧
      (∀ k, s'.ds.job? k = if k = t.jobID then some { j with progress := w } else s.ds.job? k) := by
  let v := clampProgress t.progress
  let w := jobProgress j.position j.taskCount v
  have hv0 : 0 ≤ v := by
    show 0 ≤ clampProgress t.progress
    unfold clampProgress; split
    · exact le_refl 0
    · split
      · linarith
      · rename_i h _; exact not_lt.1 h
  have hv1 : v ≤ 100 := by
    show clampProgress t.progress ≤ 100
    unfold clampProgress; split
    · linarith
    · split
      · exact le_refl _
      · rename_i h; exact not_lt.1 h
  have hn : (0 : Rat) < (j.taskCount : Rat) := by exact_mod_cast (by omega : 0 < j.taskCount)
  have hp1 : (1 : Rat) ≤ (j.position : Rat) := by exact_mod_cast h1
  have hpn : (j.position : Rat) ≤ (j.taskCount : Rat) := by exact_mod_cast h2
  have hw : w = round2 (((j.position : Rat) - 1 + v / 100) / (j.taskCount : Rat) * 100) := by
    show jobProgress j.position j.taskCount v = _
    unfold jobProgress
    split
    · rename_i h; rw [h]; simp
    · rfl
  have hb := frac_le (a := (j.position : Rat) - 1 + v / 100) (by linarith) hn (by linarith)
  let s' := (s.withDs (s.ds.setTask t.id { u with progress := v })).withDs
    ((s.ds.setTask t.id { u with progress := v }).setJob t.jobID { j with progress := w })
  refine ⟨_, s', v, w, rfl, ?_, hv0, hv1, ?_, ?_, ?_, ?_, rfl, ?_, ?_⟩
  · refine wrapTask_ok (x := { t with progress := v }) ?_
    unfold progressHandler
    simp only [bind_eq, pure_eq]
    rw [exec_tx (s := s) (updateTask'_of (t := u) hu)]
    simp only
    rw [exec_read (s := s.withDs _) (getJob_of (j := j) (by show DS.job? (s.ds.setTask _ _) _ = _; rw [job?_setTask]; exact hj))]
    simp only
    rw [exec_tx (s := s.withDs _) (updateJob'_of (t := j) (by show DS.job? (s.ds.setTask _ _) _ = _; rw [job?_setTask]; exact hj))]
    rfl
  · intro ha hb
    show clampProgress t.progress = _
    unfold clampProgress
    rw [if_neg (not_lt.2 ha), if_neg (not_lt.2 hb)]
  · rw [hw, ← round2_zero]; exact round2_mono hb.1
  · rw [hw]; exact le_trans (round2_mono hb.2) (le_of_eq round2_hundred)
  · intro t0 j0 j0' hadv hc
    rw [hadv.progress, hc, hw]
    constructor
    · intro hle
      have hle' : (j0.position : Rat) + 1 ≤ (j.position : Rat) := by exact_mod_cast hle
      exact round2_mono (frac_mono hn (by linarith))
    · intro hle
      have hle' : (j.position : Rat) ≤ (j0.position : Rat) := by exact_mod_cast hle
      exact round2_mono (frac_mono hn (by linarith))
  · intro k
    show DS.task? (DS.setJob (s.ds.setTask _ _) _ _) k = _
    rw [task?_setJob, task?_set_eq hu]
    rfl
  · intro k
    show DS.job? (DS.setJob (s.ds.setTask _ _) _ _) k = _
    rw [job?_set_eq (by rw [job?_setTask]; exact hj), job?_setTask]
    rfl

end Tork
