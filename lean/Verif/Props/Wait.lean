import Verif.Wait
/-!
# C73: waiting for a job

`POST /jobs` with `wait` answers with the outcome of the job that was submitted. What is written to a response, when the wait ends, and three
ways in which it goes wrong: an event handled too early (the job never answers), an outcome announced twice (the coordinator ends), an outcome
that comes while the request gives up (another client reads it).
-/

namespace Tork.Wait

/-- Any number of steps. -/
inductive Run : S → S → Prop
  | refl {s : S} : Run s s
  | step {s t u : S} : Run s t → t.crashed = false → Step t u → Run s u

theorem Reach.run {s t : S} (h : Reach s) (r : Run s t) : Reach t := by
  induction r with
  | refl => exact h
  | step _ hc hs ih => exact .step ih hc hs

/-- What is left to do for the handler of a request. -/
def work (q : Req) : Nat :=
  5 * q.inbox.length + match q.h with
    | .idle => 0
    | .naming _ => 4
    | .compare _ => 3
    | .write _ => 2
    | .close _ => 1

/-- **C73**: an outcome that is written to a response was published, is the outcome of the job of the request whose handler wrote it, and that
request is the one that is answered; unless it had given up before, or two outcomes of its job were published. -/
theorem C73_responses {s : S} (h : Reach s) {r src : Nat} {e : Ev} (hi : Item.job src e ∈ (s.req r).out) :
    e ∈ s.published ∧ (e.state = .completed ∨ e.state = .failed ∨ e.state = .cancelled) ∧ (s.req src).job = some e.job ∧
    (src = r ∨ (s.req src).pc = .done .timeout ∨ (s.req src).pc = .done .gone ∨ (s.req src).pc = .done .shutdown ∨
      2 ≤ s.published.countP (fun x => x.terminal && x.job == e.job)) := by
  have i := inv2_reach h
  obtain ⟨h1, h2, h3, _⟩ := i.hits.out r src e hi
  refine ⟨h3, ?_, (i.phases.mine src e.job (i.events.pub e h3) h1).1, i.wrong.stray r src e hi⟩
  simpa [Ev.terminal, or_assoc] using h2

/-- **C73**: a request that ends because its job has ended carries the outcome of its job. -/
theorem C73_answered {s : S} (h : Reach s) {r : Nat} (hp : (s.req r).pc = .done .answered) :
    ∃ e, Item.job r e ∈ (s.req r).out ∧ e ∈ s.published ∧ (e.state = .completed ∨ e.state = .failed ∨ e.state = .cancelled) ∧
      (s.req r).job = some e.job := by
  obtain ⟨e, he⟩ := saidBy_mem ((inv2_reach h).told.answered r hp)
  obtain ⟨h1, h2, h3, _⟩ := C73_responses h he
  exact ⟨e, he, h1, h2, h3⟩

/-- **C73**: the outcome is not missed. While a request waits, once the outcome of its job was published, either the wait is over or the outcome
is on its way to the handler; provided that the handler was not called before the id of the job was fixed. -/
theorem C73_not_missed {s : S} (h : Reach s) {r : Nat} {e : Ev} (hp : (s.req r).pc = .waiting) (he : e ∈ s.published)
    (ht : e.state = .completed ∨ e.state = .failed ∨ e.state = .cancelled) (hj : (s.req r).job = some e.job) (hn : (s.req r).early = false) :
    (s.req r).closed = true ∨ e ∈ (s.req r).inbox ∨ (s.req r).h.ev = some e := by
  have i := inv2_reach h
  rcases i.kept r e he (by simpa [Ev.terminal, or_assoc] using ht) hj hn (i.stable.subd r (by simp [hp])) with h | h | h
  · exact .inr (.inl h)
  · exact .inr (.inr h)
  · exact .inl h

/-- **C73**: and the handler is never blocked: while it has something to do it can go on, and has less to do then. -/
theorem C73_handler_goes_on {s : S} {r : Nat} (hw : 0 < work (s.req r)) :
    ∃ s', Step s s' ∧ work (s'.req r) < work (s.req r) ∧ (s'.req r).pc = (s.req r).pc ∧ s'.published = s.published := by
  cases hh : (s.req r).h with
  | idle =>
    cases hi : (s.req r).inbox with
    | nil => simp [work, hh, hi] at hw
    | cons e es =>
      refine ⟨_, .take r e es hh hi, ?_, by simp [upd], rfl⟩
      simp only [upd, if_pos, work, hh, hi, List.length_cons]
      split <;> split at * <;> first | omega | (split at * <;> simp_all)
  | naming e => exact ⟨_, .hname r e hh, by simp [upd, work, hh], by simp [upd], rfl⟩
  | compare e =>
    refine ⟨_, .compare r e hh, ?_, by simp [upd], rfl⟩
    simp only [upd, if_pos, work, hh]
    by_cases hc : (s.req r).id = some e.job ∧ e.terminal = true
    · rw [if_pos hc]; simp
    · rw [if_neg hc]; simp
  | write e =>
    cases ho : s.own (s.req r).ctx with
    | none => exact ⟨_, .writeLost r e hh ho, by simp [upd, work, hh], by simp [upd], rfl⟩
    | some r' => exact ⟨_, .write r r' e hh ho, by simp [say, work, hh], by simp [say], rfl⟩
  | close e => exact ⟨_, .close r e hh, by simp [upd, work, hh], by simp [upd], rfl⟩

/-- **C73**: so when the handler has nothing left to do, the wait is over. -/
theorem C73_wait_ends {s : S} (h : Reach s) {r : Nat} {e : Ev} (hp : (s.req r).pc = .waiting) (he : e ∈ s.published)
    (ht : e.state = .completed ∨ e.state = .failed ∨ e.state = .cancelled) (hj : (s.req r).job = some e.job) (hn : (s.req r).early = false)
    (hw : work (s.req r) = 0) :
    ∃ s', Step s s' ∧ (s'.req r).pc = .done .answered ∧ ∃ e', Item.job r e' ∈ (s'.req r).out ∧ e'.job = e.job := by
  have hi : (s.req r).inbox = [] := by
    cases hi : (s.req r).inbox with
    | nil => rfl
    | cons a l => simp [work, hi] at hw
  have hh : (s.req r).h = .idle := by
    cases hh : (s.req r).h <;> simp [work, hh] at hw ⊢
  have hc : (s.req r).closed = true := by
    rcases C73_not_missed h hp he ht hj hn with hc | hc | hc
    · exact hc
    · rw [hi] at hc; cases hc
    · rw [hh] at hc; cases hc
  obtain ⟨e', he'⟩ := saidBy_mem ((inv2_reach h).told.told r hp (.inl hc))
  refine ⟨_, .answered r hp hc, by simp [upd], e', by simpa [upd] using he', ?_⟩
  have := (C73_responses h he').2.2.1
  rw [hj] at this
  exact (Option.some.inj this).symm

/-- **C73**: the coordinator ends by closing the channel twice only if two outcomes of one job were published. -/
theorem C73_crash {s : S} (h : Reach s) (hc : s.crashed = true) :
    ∃ n, 2 ≤ s.published.countP (fun x => x.terminal && x.job == n) :=
  (inv2_reach h).wrong.crash hc

/-- **C73**: once the handler compares with an id that is not the id of the job, the request is never answered, whatever happens. -/
theorem C73_lost_forever {s t : S} (h : Reach s) {r n m : Nat} (hm : (s.req r).id = some m) (hn : (s.req r).job = some n) (hne : m ≠ n)
    (hh : (s.req r).h = .idle) (hc : (s.req r).closed = false) (hr : Run s t) :
    (t.req r).closed = false ∧ (t.req r).pc ≠ .done .answered := by
  have : Lost t r := by
    induction hr with
    | refl => exact ⟨by simp [hm, hn, hne], by simp [hm], by simp [hn], by simp [hh, H.hit], hc⟩
    | step hr _ hs ih => have i := inv2_reach (h.run hr); exact lost_step i.names i.events i.phases ih hs
  refine ⟨this.closed, fun hp => ?_⟩
  have := (inv2_reach (h.run hr)).wrong.answered r hp
  simp_all [Lost.closed]

/-! ## Examples and defects -/

theorem Reach.next {s s' : S} (h : Reach s) (hc : s.crashed = false) (hs : Step s s') : Reach s' := .step h hc hs

/-- The request is subscribed and its job submitted: `next` is 1, the id of the job is 0. -/
theorem submitted0 : Reach { req := upd (fun _ => {}) 0 { pc := .waiting, ctx := 7, id := some 0, job := some 0, sub := true }
                             own := upd (fun _ => none) 7 (some 0), by_ := upd (fun _ => none) 0 (some 0), submitted := [0], next := 1 } := by
  have t := Reach.init
  have t := t.next rfl (.arrive 0 7 rfl rfl)
  have t := t.next rfl (.subscribe 0 [] rfl (by simp))
  have t := t.next rfl (.check 0 rfl)
  have t := t.next rfl (.name 0 rfl)
  have t := t.next rfl (.read 0 rfl)
  have t := t.next rfl (.submit 0 0 rfl rfl)
  refine cast (congrArg Reach ?_) t
  simp only [S.mk.injEq, and_true]
  refine funext fun k => ?_
  by_cases hk : k = 0 <;> simp [upd, hk]

/-- The hypotheses of `C73_wait_ends` and `C73_answered` are met: the job completes, the client reads that. -/
theorem wait_example : ∃ s, Reach s ∧ (s.req 0).pc = .done .answered ∧ (s.req 0).out = [.job 0 ⟨0, .completed⟩] ∧ (s.req 0).early = false ∧ s.crashed = false := by
  have t := submitted0
  have t := t.next rfl (.publish ⟨0, .running⟩ (by simp))
  have t := t.next rfl (.publish ⟨0, .completed⟩ (by simp))
  have t := t.next rfl (.take 0 ⟨0, .running⟩ [⟨0, .completed⟩] rfl rfl)
  have t := t.next rfl (.compare 0 ⟨0, .running⟩ rfl)
  have t := t.next rfl (.take 0 ⟨0, .completed⟩ [] rfl rfl)
  have t := t.next rfl (.compare 0 ⟨0, .completed⟩ rfl)
  have t := t.next rfl (.write 0 0 ⟨0, .completed⟩ rfl rfl)
  have t := t.next rfl (.close 0 ⟨0, .completed⟩ rfl)
  have t := t.next rfl (.answered 0 rfl rfl)
  exact ⟨_, t, rfl, rfl, rfl, rfl⟩

/-- **C73** (defect): an event about *another* job that is handled while the request makes up the id of its job
(`/repo/input/job.go:75-80` is called by two goroutines without synchronisation) leaves the handler with a different id: the job completes, every
event has been handled, and the client still waits. By `C73_lost_forever` it waits until it times out. -/
theorem C73_early_event_loses_the_job : ∃ s, Reach s ∧ (s.req 0).pc = .waiting ∧ (s.req 0).job = some 1 ∧ ⟨1, .completed⟩ ∈ s.published ∧
    work (s.req 0) = 0 ∧ ∀ t, Run s t → (t.req 0).pc ≠ .done .answered := by
  have t := Reach.init
  have t := t.next rfl .other
  have t := t.next rfl (.arrive 0 7 rfl rfl)
  have t := t.next rfl (.subscribe 0 [] rfl (by simp))
  have t := t.next rfl (.publish ⟨0, .running⟩ (by simp))
  have t := t.next rfl (.check 0 rfl)
  have t := t.next rfl (.take 0 ⟨0, .running⟩ [] rfl rfl)
  have t := t.next rfl (.name 0 rfl)
  have t := t.next rfl (.read 0 rfl)
  have t := t.next rfl (.hname 0 ⟨0, .running⟩ rfl)
  have t := t.next rfl (.compare 0 ⟨0, .running⟩ rfl)
  have t := t.next rfl (.submit 0 1 rfl rfl)
  have t := t.next rfl (.publish ⟨1, .completed⟩ (by simp))
  have t := t.next rfl (.take 0 ⟨1, .completed⟩ [] rfl rfl)
  have t := t.next rfl (.compare 0 ⟨1, .completed⟩ rfl)
  exact ⟨_, t, rfl, rfl, by simp, rfl, fun u hu => (C73_lost_forever (n := 1) (m := 2) t rfl rfl (by decide) rfl rfl hu).2⟩

/-- **C73** (defect): two events that say that the job has failed (see `C72_failed_announced_twice`) while a client waits for it end the
coordinator process: the second one closes a closed channel. -/
theorem C73_two_failures_crash : ∃ s, Reach s ∧ s.crashed = true ∧ s.published = [⟨0, .failed⟩, ⟨0, .failed⟩] := by
  have t := submitted0
  have t := t.next rfl (.publish ⟨0, .failed⟩ (by simp))
  have t := t.next rfl (.publish ⟨0, .failed⟩ (by simp))
  have t := t.next rfl (.take 0 ⟨0, .failed⟩ [⟨0, .failed⟩] rfl rfl)
  have t := t.next rfl (.compare 0 ⟨0, .failed⟩ rfl)
  have t := t.next rfl (.write 0 0 ⟨0, .failed⟩ rfl rfl)
  have t := t.next rfl (.close 0 ⟨0, .failed⟩ rfl)
  have t := t.next rfl (.answered 0 rfl rfl)
  have t := t.next rfl (.take 0 ⟨0, .failed⟩ [] rfl rfl)
  have t := t.next rfl (.compare 0 ⟨0, .failed⟩ rfl)
  have t := t.next rfl (.writeLost 0 ⟨0, .failed⟩ rfl rfl)
  have t := t.next rfl (.close 0 ⟨0, .failed⟩ rfl)
  exact ⟨_, t, rfl, rfl⟩

/-- **C73** (defect): an outcome that comes at the moment its request times out is written into the response of the request that has been
given the same context since: client 1 reads the job of client 0. -/
theorem C73_outcome_for_another_client : ∃ s, Reach s ∧ (s.req 0).pc = .done .timeout ∧ (s.req 1).pc = .start ∧
    (s.req 1).out = [.job 0 ⟨0, .completed⟩] ∧ s.published = [⟨0, .completed⟩] := by
  have t := submitted0
  have t := t.next rfl (.publish ⟨0, .completed⟩ (by simp))
  have t := t.next rfl (.take 0 ⟨0, .completed⟩ [] rfl rfl)
  have t := t.next rfl (.compare 0 ⟨0, .completed⟩ rfl)
  have t := t.next rfl (.giveUp 0 .timeout rfl (.inl rfl))
  have t := t.next rfl (.arrive 1 7 rfl rfl)
  have t := t.next rfl (.write 0 1 ⟨0, .completed⟩ rfl rfl)
  exact ⟨_, t, rfl, rfl, rfl, rfl⟩

end Tork.Wait
