import Verif.ExecLemmas
import Verif.Trace
/-!
# C41 — cancel and restart requests are guarded
-/

namespace Tork
open Prog

/-- A read followed by at most one publish: what any run of such a program does. -/
theorem run_read_pub {α : Type} {id : Nat} {k : Except Err Job → Prog α} {l : List Ev} {q : Prog α}
    {P : Job → Msg → Prop}
    (hk : ∀ r, (∃ a, k r = .ret a) ∨ ∃ j m g, r = .ok j ∧ P j m ∧ k r = .pub m g ∧ ∀ x, ∃ a, g x = .ret a)
    (h : Run ((tx (getJob id)).bind k) l q) :
    (∀ e ∈ l, e.after = e.before) ∧ (published l).length ≤ 1 ∧
    ∀ m ∈ published l, ∃ e ∈ l, ∃ j, e.before.job? id = some j ∧ P j m := by
  have ret : ∀ {a : α} {l : List Ev} {q : Prog α}, Run (.ret a) l q → l = [] := by
    intro a l q h
    cases h with
    | nil => rfl
    | cons hp => cases hp
  have err : ∀ e, ∃ a, k (.error e) = .ret a := by
    intro e
    rcases hk (.error e) with h | ⟨j, m, g, h, _⟩
    · exact h
    · cases h
  have two : ∀ {a : α} {e : Ev} {l : List Ev} {q : Prog α} {p : Prog α}, p = .ret a → Run p l q → e.after = e.before → e.msgs = [] →
      (∀ x ∈ e :: l, x.after = x.before) ∧ (published (e :: l)).length ≤ 1 ∧
      ∀ m ∈ published (e :: l), ∃ x ∈ e :: l, ∃ j, x.before.job? id = some j ∧ P j m := by
    intro a e l q p hp hr h1 h2
    subst hp
    have := ret hr
    subst this
    refine ⟨by simpa using h1, by simp [published, h2], ?_⟩
    intro m hm
    simp [published, h2] at hm
  have hread : ∀ ds, ((DbOp.of (getJob id)).run ds).2 = (ds, []) := by
    intro ds
    simp only [DbOp.of, getJob]
    cases ds.job? id <;> rfl
  cases h with
  | nil => exact ⟨by simp, by simp [published], by simp [published]⟩
  | cons hp hr =>
    cases hp with
    | dbFail op k' _ _ e =>
      obtain ⟨a, ha⟩ := err e
      exact two (by exact ha) hr rfl rfl
    | dbLost op k' ds _ e =>
      obtain ⟨a, ha⟩ := err e
      exact two (by exact ha) hr (by simp only; rw [hread]) (by simp only; rw [hread])
    | dbPartial op k' ds _ e x hx =>
      simp [DbOp.of] at hx
    | dbOk op k' =>
      rename_i ds _ _
      have e1 : ((DbOp.of (getJob id)).run ds).2.1 = ds := by rw [hread]
      have e2 : ((DbOp.of (getJob id)).run ds).2.2 = [] := by rw [hread]
      have hr : Run (k ((DbOp.of (getJob id)).run ds).1) _ q := hr
      rcases hk ((DbOp.of (getJob id)).run ds).1 with ⟨a, ha⟩ | ⟨j, m, g, h1, h2, h3, h4⟩
      · exact two ha hr e1 e2
      · have hj : ds.job? id = some j := by
          simp only [DbOp.of, getJob] at h1
          cases hx : ds.job? id with
          | none => rw [hx] at h1; cases h1
          | some y => rw [hx] at h1; cases h1; rfl
        rw [h3] at hr
        have fin : ∀ (l' : List Ev) (ms : List Msg) (d : DS), ms = [] ∨ ms = [m] → l' = [] →
            (∀ x ∈ (⟨ds, ((DbOp.of (getJob id)).run ds).2.1, ((DbOp.of (getJob id)).run ds).2.2⟩ : Ev) :: ⟨d, d, ms⟩ :: l', x.after = x.before) ∧
            (published ((⟨ds, ((DbOp.of (getJob id)).run ds).2.1, ((DbOp.of (getJob id)).run ds).2.2⟩ : Ev) :: ⟨d, d, ms⟩ :: l')).length ≤ 1 ∧
            ∀ x ∈ published ((⟨ds, ((DbOp.of (getJob id)).run ds).2.1, ((DbOp.of (getJob id)).run ds).2.2⟩ : Ev) :: ⟨d, d, ms⟩ :: l'),
              ∃ e ∈ (⟨ds, ((DbOp.of (getJob id)).run ds).2.1, ((DbOp.of (getJob id)).run ds).2.2⟩ : Ev) :: ⟨d, d, ms⟩ :: l',
              ∃ j, e.before.job? id = some j ∧ P j x := by
          intro l' ms d hms hl
          subst hl
          rw [e1, e2]
          refine ⟨by simp, ?_, ?_⟩
          · rcases hms with rfl | rfl <;> simp [published]
          · intro x hx
            rcases hms with rfl | rfl
            · simp [published] at hx
            · have : x = m := by simpa [published] using hx
              subst this
              exact ⟨_, List.mem_cons_self, j, hj, h2⟩
        cases hr with
        | nil =>
          refine ⟨by simp [e1], by simp [published, e2], ?_⟩
          intro x hx
          simp [published, e2] at hx
        | cons hp2 hr2 =>
          cases hp2 with
          | pubOk m' k'' d n =>
            obtain ⟨a, ha⟩ := h4 (.ok ())
            rw [ha] at hr2
            exact fin _ _ _ (.inr rfl) (ret hr2)
          | pubFail m' k'' d n e =>
            obtain ⟨a, ha⟩ := h4 (.error e)
            rw [ha] at hr2
            exact fin _ _ _ (.inl rfl) (ret hr2)
          | pubLost m' k'' d n e =>
            obtain ⟨a, ha⟩ := h4 (.error e)
            rw [ha] at hr2
            exact fin _ _ _ (.inr rfl) (ret hr2)

/-- A job may be cancelled while it is scheduled or running. -/
def MayCancel (j : Job) : Prop := j.state = .scheduled ∨ j.state = .running
/-- A job may be restarted when it failed or was cancelled and its position has not passed its last task. -/
def MayRestart (j : Job) : Prop := (j.state = .failed ∨ j.state = .cancelled) ∧ j.position ≤ j.tasks.length

/-- **C41 (cancel).** With datastore and broker working: an unknown job is not found; a job that is not scheduled or
running is refused; both without any effect. Otherwise the request is accepted and its only effect is one message asking
the coordinator to cancel the job. -/
theorem C41_cancel (id : Nat) (s : Sys) :
    (s.ds.job? id = none → ∃ e, (apiCancel id).exec s = (some (.notFound e), s)) ∧
    (∀ j, s.ds.job? id = some j → ¬ MayCancel j → ∃ e, (apiCancel id).exec s = (some (.badRequest e), s)) ∧
    (∀ j, s.ds.job? id = some j → MayCancel j →
      (apiCancel id).exec s = (some (.ok ()), s.send [.job { j with state := .cancelled }])) := by
  refine ⟨?_, ?_, ?_⟩
  · intro h
    refine ⟨"job not found", ?_⟩
    unfold apiCancel
    simp only [bind_eq, pure_eq]
    rw [exec_tx_err (e := "job not found") (by simp [getJob, h]), exec_ret]
  · intro j h hn
    unfold apiCancel
    simp only [bind_eq, pure_eq]
    rw [exec_read (getJob_of h)]
    simp only
    rw [if_pos ⟨fun e => hn (.inr e), fun e => hn (.inl e)⟩]; exact ⟨_, rfl⟩
  · intro j h hn
    unfold apiCancel
    simp only [bind_eq, pure_eq]
    rw [exec_read (getJob_of h)]
    simp only
    rw [if_neg (by rcases hn with h | h <;> simp [h]), exec_pub, exec_ret]

/-- **C41 (restart).** As for cancel: an unknown job, or one that did not fail and was not cancelled, or whose position
has passed its last task, is refused without effect; otherwise the only effect is one restart message. -/
theorem C41_restart (id : Nat) (s : Sys) :
    (s.ds.job? id = none → ∃ e, (apiRestart id).exec s = (some (.notFound e), s)) ∧
    (∀ j, s.ds.job? id = some j → ¬ MayRestart j → ∃ e, (apiRestart id).exec s = (some (.badRequest e), s)) ∧
    (∀ j, s.ds.job? id = some j → MayRestart j →
      (apiRestart id).exec s = (some (.ok ()), s.send [.job { j with state := .restart }])) := by
  refine ⟨?_, ?_, ?_⟩
  · intro h
    refine ⟨"job not found", ?_⟩
    unfold apiRestart
    simp only [bind_eq, pure_eq]
    rw [exec_tx_err (e := "job not found") (by simp [getJob, h]), exec_ret]
  · intro j h hn
    unfold apiRestart
    simp only [bind_eq, pure_eq]
    rw [exec_read (getJob_of h)]
    simp only
    by_cases hs : j.state ≠ .failed ∧ j.state ≠ .cancelled
    · rw [if_pos hs]; exact ⟨_, rfl⟩
    · rw [if_neg hs]
      have hp : j.position > j.tasks.length := by
        refine Nat.lt_of_not_le fun hle => hn ⟨?_, hle⟩
        by_cases h1 : j.state = .failed
        · exact .inl h1
        · exact .inr (Classical.not_not.1 fun h2 => hs ⟨h1, h2⟩)
      rw [if_pos hp]; exact ⟨_, rfl⟩
  · intro j h hn
    unfold apiRestart
    simp only [bind_eq, pure_eq]
    rw [exec_read (getJob_of h)]
    simp only
    rw [if_neg (by rcases hn.1 with h | h <;> simp [h]), if_neg (by have := hn.2; omega), exec_pub, exec_ret]

/-- **C41 (every run).** Whatever else happens concurrently and whatever fails: a cancel request never writes to the
datastore and sends at most one message, and only for a job that was scheduled or running when it was read. -/
theorem C41_cancel_every_run {id : Nat} {l : List Ev} {q : Prog (Http Unit)} (h : Run (apiCancel id) l q) :
    (∀ e ∈ l, e.after = e.before) ∧ (published l).length ≤ 1 ∧
    ∀ m ∈ published l, ∃ e ∈ l, ∃ j, e.before.job? id = some j ∧ MayCancel j ∧ m = .job { j with state := .cancelled } := by
  refine run_read_pub (P := fun j m => MayCancel j ∧ m = .job { j with state := .cancelled }) (fun r => ?_) h
  cases r with
  | error e => exact .inl ⟨_, rfl⟩
  | ok j =>
    by_cases hn : j.state ≠ .running ∧ j.state ≠ .scheduled
    · left; simp only [if_pos hn]; exact ⟨_, rfl⟩
    · right
      refine ⟨j, _, _, rfl, ⟨?_, rfl⟩, by simp only [if_neg hn]; rfl, ?_⟩
      · by_cases h1 : j.state = .running
        · exact .inr h1
        · exact .inl (Classical.not_not.1 fun h2 => hn ⟨h1, h2⟩)
      · intro x; cases x <;> exact ⟨_, rfl⟩

/-- **C41 (every run), restart.** -/
theorem C41_restart_every_run {id : Nat} {l : List Ev} {q : Prog (Http Unit)} (h : Run (apiRestart id) l q) :
    (∀ e ∈ l, e.after = e.before) ∧ (published l).length ≤ 1 ∧
    ∀ m ∈ published l, ∃ e ∈ l, ∃ j, e.before.job? id = some j ∧ MayRestart j ∧ m = .job { j with state := .restart } := by
  refine run_read_pub (P := fun j m => MayRestart j ∧ m = .job { j with state := .restart }) (fun r => ?_) h
  cases r with
  | error e => exact .inl ⟨_, rfl⟩
  | ok j =>
    by_cases hn : j.state ≠ .failed ∧ j.state ≠ .cancelled
    · left; simp only [if_pos hn]; exact ⟨_, rfl⟩
    · by_cases hp : j.position > j.tasks.length
      · left; simp only [if_neg hn, if_pos hp]; exact ⟨_, rfl⟩
      · right
        refine ⟨j, _, _, rfl, ⟨⟨?_, by omega⟩, rfl⟩, by simp only [if_neg hn, if_neg hp]; rfl, ?_⟩
        · by_cases h1 : j.state = .failed
          · exact .inl h1
          · exact .inr (Classical.not_not.1 fun h2 => hn ⟨h1, h2⟩)
        · intro x; cases x <;> exact ⟨_, rfl⟩

namespace GuardsEx
def running : Job := { id := 1, state := .running, tasks := [{ name := "a" }], position := 1 }
def failed : Job := { id := 2, state := .failed, tasks := [{ name := "a" }], position := 1 }
def sys : Sys := { ds := { jobs := [running, failed] }, out := [], next := 10, o := fun n => n, tick := 0 }
example : sys.ds.job? 1 = some running ∧ MayCancel running ∧ ¬ MayRestart running := by
  refine ⟨rfl, .inr rfl, ?_⟩; rintro ⟨h | h, _⟩ <;> cases h
example : sys.ds.job? 2 = some failed ∧ MayRestart failed ∧ ¬ MayCancel failed := by
  refine ⟨rfl, ⟨.inl rfl, by decide⟩, ?_⟩; rintro (h | h) <;> cases h
end GuardsEx

end Tork
