import Verif.Registry
/-!
# C19 (registry) — running tasks, the task counter and cancellation on a worker
-/

namespace Tork.Registry
open Tork.Queues (upd)

variable {tid cid : Nat → Nat}

structure Inv (tid cid : Nat → Nat) (s : St) : Prop where
  count : s.count = s.active.length
  nodup : s.active.Nodup
  active : ∀ r, r ∈ s.active ↔ s.pc r ≠ .idle ∧ s.pc r ≠ .done
  reg : ∀ i r, s.reg i = some r → tid r = i ∧ s.pc r = .running
  found : ∀ c r, s.cpc c = .found r → tid r = cid c
  dead : ∀ r, s.dead r = true → s.pc r = .cancelledOwn ∨ s.pc r = .done ∨
    ∃ c, cid c = tid r ∧ (s.cpc c = .cancelled ∨ s.cpc c = .done)

theorem inv_reach {s : St} (h : Reach tid cid s) : Inv tid cid s := by
  induction h with
  | init => constructor <;> simp [St.init]
  | step _ hs ih =>
    obtain ⟨i1, i2, i3, i4, i5, i6⟩ := ih
    cases hs with
    | enter r h =>
      refine ⟨by simp [i1], ?_, ?_, ?_, i5, ?_⟩ <;> grind [upd]
    | register r h => refine ⟨i1, i2, ?_, ?_, i5, ?_⟩ <;> grind [upd]
    | unregister r h => refine ⟨i1, i2, ?_, ?_, i5, ?_⟩ <;> grind [upd]
    | ownCancel r h => refine ⟨i1, i2, ?_, ?_, i5, ?_⟩ <;> grind [upd]
    | leave r h =>
      have hm : r ∈ _ := (i3 r).2 (by rw [h]; simp)
      refine ⟨?_, i2.erase _, ?_, ?_, i5, ?_⟩
      · simp only [i1, List.length_erase_of_mem hm]
      · intro k
        rw [List.Nodup.mem_erase_iff i2]
        grind [upd]
      · grind [upd]
      · grind [upd]
    | find c r h h2 => refine ⟨i1, i2, i3, i4, ?_, ?_⟩ <;> grind [upd]
    | miss c h h2 => refine ⟨i1, i2, i3, i4, ?_, ?_⟩ <;> grind [upd]
    | cancel c r h => refine ⟨i1, i2, i3, i4, ?_, ?_⟩ <;> grind [upd]
    | delete c h => refine ⟨i1, i2, i3, ?_, ?_, ?_⟩ <;> grind [upd]

/-- **C19 (counter and registry).** In every reachable state the counter is the number of runs in progress (`l` lists
them), and every registry entry is for a task run in progress. Hence, when no run is in progress, the counter is zero and
the registry is empty. -/
theorem C19_counter {s : St} (h : Reach tid cid s) :
    (∃ l : List Nat, l.Nodup ∧ (∀ r, r ∈ l ↔ s.pc r ≠ .idle ∧ s.pc r ≠ .done) ∧ s.count = l.length) ∧
    (∀ i r, s.reg i = some r → tid r = i ∧ s.pc r = .running) ∧
    ((∀ r, s.pc r = .idle ∨ s.pc r = .done) → s.count = 0 ∧ ∀ i, s.reg i = none) := by
  obtain ⟨i1, i2, i3, i4, i5, i6⟩ := inv_reach h
  refine ⟨⟨s.active, i2, i3, i1⟩, i4, fun hd => ⟨?_, fun i => ?_⟩⟩
  · rw [i1, List.length_eq_zero_iff, List.eq_nil_iff_forall_not_mem]
    intro r hr
    have := (i3 r).1 hr
    rcases hd r with h | h
    · exact this.1 h
    · exact this.2 h
  · cases hr : s.reg i with
    | none => rfl
    | some r =>
      have := (i4 i r hr).2
      rcases hd r with h | h <;> rw [h] at this <;> cases this

/-- **C19 (cancellation reaches only its task).** A run that is still executing is cancelled only by a cancel request
naming its task. -/
theorem C19_cancelled_only_by_request {s : St} (h : Reach tid cid s) {r : Nat} (hd : s.dead r = true)
    (hr : s.pc r = .running) : ∃ c, cid c = tid r ∧ (s.cpc c = .cancelled ∨ s.cpc c = .done) := by
  rcases (inv_reach h).dead r hd with h | h | h
  · rw [hr] at h; cases h
  · rw [hr] at h; cases h
  · exact h

/-- **C19 (a running task can be cancelled).** If no two runs are of the same task and no cancel request names it so
far, a running task is registered, so a cancel request naming it finds it and cancels exactly it. -/
theorem C19_cancel_finds {s : St} (h : Reach tid cid s) (hinj : ∀ a b, tid a = tid b → a = b) {r : Nat}
    (hno : ∀ c, cid c = tid r → s.cpc c = .idle) (hr : s.pc r = .running) : s.reg (tid r) = some r := by
  have key : ∀ {s : St}, Reach tid cid s → ∀ r, s.pc r = .running →
      s.reg (tid r) = some r ∨ ∃ c, cid c = tid r ∧ s.cpc c ≠ .idle := by
    intro s h
    induction h with
    | init => intro r hr; simp [St.init] at hr
    | step _ hs ih =>
      cases hs with
      | delete c hc =>
        intro r hr
        by_cases he : cid c = tid r
        · exact .inr ⟨c, he, by simp [upd]⟩
        · grind [upd]
      | _ => grind [upd]
  rcases key h r hr with h | ⟨c, h1, h2⟩
  · exact h
  · exact absurd (hno c h1) h2

/-- With a duplicate delivery the same task can run twice; then the end of one run removes the entry of the other, and a
cancel request no longer finds the running task. -/
theorem C19_duplicate_hides_running : ∃ s : St, Reach (fun _ => 7) (fun _ => 7) s ∧ s.pc 2 = .running ∧ s.dead 2 = false ∧
    s.reg 7 = none ∧ ∀ c, s.cpc c = .idle := by
  refine ⟨_, .step (.step (.step (.step (.step .init (.enter _ 1 rfl)) (.register _ 1 rfl)) (.enter _ 2 rfl))
    (.register _ 2 rfl)) (.unregister _ 1 rfl), rfl, rfl, rfl, fun _ => rfl⟩

/-- a run in progress that can be cancelled -/
example : ∃ s : St, Reach (fun r => r) (fun c => c) s ∧ s.pc 5 = .running ∧ s.reg 5 = some 5 ∧ s.count = 2 :=
  ⟨_, .step (.step (.step .init (.enter _ 5 rfl)) (.register _ 5 rfl)) (.enter _ 6 rfl), rfl, rfl, rfl⟩
/-- a cancelled running task -/
example : ∃ s : St, Reach (fun r => r) (fun c => c) s ∧ s.pc 5 = .running ∧ s.dead 5 = true :=
  ⟨_, .step (.step (.step (.step .init (.enter _ 5 rfl)) (.register _ 5 rfl)) (.find _ 5 5 rfl rfl)) (.cancel _ 5 5 rfl),
    rfl, rfl⟩

end Tork.Registry
