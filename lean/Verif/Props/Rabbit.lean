import Verif.RabbitOnce
import Verif.RabbitWhy
import Verif.RabbitKept
import Verif.Props.Redelivery
/-!
# C65 — the RabbitMQ broker

Observations are the labels of a run (`Lbl`, `Rabbit.lean`); `l` lists those of a run so far, the latest first. `Published l id q b`: a
message was put into queue `q`. `calls l id`: how often a handler has been called with it.
-/

namespace Tork.Rabbit
open Tork.Queues (upd)

variable {P : Type} {dec : Body → Option P} {l : List (Lbl P)} {s : St}

theorem place_trace (h : Trace dec l s) : Place l s := by
  induction h with
  | init =>
    refine ⟨?_, ?_, ?_, ?_, ?_, ?_, ?_, ?_, ?_⟩ <;> simp [St.init, Published, Phase.held]
  | step _ hs ih => exact place_step ih hs

theorem once_trace (h : Trace dec l s) : Once l s := by
  induction h with
  | init =>
    refine ⟨?_, ?_, ?_, ?_, ?_, ?_⟩ <;> simp [St.init, Published, Phase.held, calls]
  | step ht hs ih => exact once_step (place_trace ht) ih hs

theorem why_trace (h : Trace dec l s) : Why dec l s := by
  induction h with
  | init =>
    refine ⟨?_, ?_, ?_, ?_, ?_, ?_, ?_⟩ <;> simp [St.init]
  | step ht hs ih => exact why_step (place_trace ht) ih hs

theorem kept_trace (h : Trace dec l s) : Kept l s := by
  induction h with
  | init => intro id q b hp; simp [Published] at hp
  | step ht hs ih => exact kept_step (place_trace ht) ih hs

/-- C65, nothing is lost: at every moment a message published to a queue that exists (and is not deleted) is waiting in that queue,
or is held by one of its consumers whose channel is open, or has been settled: removed on behalf of a consumer. -/
theorem C65_kept (h : Trace dec l s) {id : Nat} {q : String} {b : Body} (hp : .sent id q b ∈ l) (hd : .deleted q ∉ l) :
    (∃ a, s.ready id = some ⟨id, q, b, a⟩) ∨
    (∃ c a, (s.cons c).up = true ∧ (s.cons c).queue = q ∧ (s.cons c).phase.held = some ⟨id, q, b, a⟩) ∨
    ∃ c ok, .settled c id ok ∈ l := by
  rcases kept_trace h id q b ⟨_, hp, rfl⟩ hd with h1 | ⟨c, a, h1, h2⟩ | h1
  · exact .inl h1
  · exact .inr (.inl ⟨c, a, h1, ((place_trace h).held c _ h2).2.1.symm, h2⟩)
  · exact .inr (.inr h1)

/-- C65, a message is settled only for a reason. Either the handler of that consumer was called with it and has returned: without error
(acknowledged) or with one (rejected); or it is a task that has been delivered before, which was put into the queue
`redeliveries`, or failed to be. -/
theorem C65_settled (h : Trace dec l s) {c id : Nat} {ok : Bool} (hs : .settled c id ok ∈ l) :
    .returned c id ok ∈ l ∨
    (ok = true ∧ ∃ q b, Published l id q b ∧ b.isTask = true ∧ ((∃ i, .forwarded c id i b ∈ l) ∨ .unforwarded c id ∈ l)) := by
  have hw := why_trace h
  cases ok with
  | false => exact .inl (hw.rejected c id hs)
  | true => exact (hw.accepted c id hs).imp (fun h => h) fun h => ⟨rfl, h⟩

/-- C65, a handler is called only with a message published to a queue it has subscribed to, decoded from exactly its body; never with a task
that has been delivered before. It returns only if called. -/
theorem C65_called (h : Trace dec l s) {c id : Nat} :
    (∀ {again p}, .called c id again p ∈ l →
      ∃ q b, Published l id q b ∧ .subscribed c q ∈ l ∧ dec b = some p ∧ (b.isTask = true → again = false)) ∧
    (∀ {ok}, .returned c id ok ∈ l → ∃ again p, .called c id again p ∈ l) := by
  have hw := why_trace h
  refine ⟨fun {again p} hc => ?_, fun {ok} hr => hw.returned c id ok hr⟩
  obtain ⟨q, b, h1, h2, h3, h4⟩ := hw.called c id again p hc
  refine ⟨q, b, h1, h3, h2, fun hb => ?_⟩
  cases ha : again with
  | false => rfl
  | true => exact absurd ⟨ha, hb⟩ h4

/-- C65, tasks: whatever channels close and processes die, no task message is given to a handler twice. -/
theorem C65_task_once (h : Trace dec l s) {id : Nat} {q : String} {b : Body} (hp : Published l id q b) (hb : b.isTask = true) :
    calls l id ≤ 1 := (once_trace h).once id q b hp hb

/-- C65, other messages: a message is in one place at a time. While a consumer with an open channel holds it, it is neither waiting in a
queue nor held by another such consumer. -/
theorem C65_one_holder (h : Trace dec l s) {c : Nat} {m : Item} (hu : (s.cons c).up = true) (hm : (s.cons c).phase.held = some m) :
    s.ready m.id = none ∧ ∀ c' m', (s.cons c').up = true → (s.cons c').phase.held = some m' → m'.id = m.id → c' = c := by
  have hp := place_trace h
  refine ⟨?_, fun c' m' h1 h2 h3 => hp.excl2 c' c m' m h1 hu h2 hm h3⟩
  cases hr : s.ready m.id with
  | none => rfl
  | some m' => exact absurd rfl (hp.excl _ m' c m hr hu hm)

/-- The queue is published to while it exists only if somebody has subscribed to it. -/
theorem declared_subscribed (h : Trace dec l s) {q : String} (hq : s.declared q = true) : ∃ c, .subscribed c q ∈ l := by
  induction h with
  | init => simp [St.init] at hq
  | step ht hs ih =>
    cases hs
    case subscribe s q' =>
      by_cases e : q = q'
      · subst e; exact ⟨s.n, List.mem_cons_self ..⟩
      · obtain ⟨c, hc⟩ := ih (by simpa [upd, e] using hq)
        exact ⟨c, List.mem_cons_of_mem _ hc⟩
    case again s c' h1 h2 =>
      by_cases e : q = (s.cons c').queue
      · rw [e]; exact ⟨s.n, List.mem_cons_self ..⟩
      · obtain ⟨c, hc⟩ := ih (by simpa [upd, e] using hq)
        exact ⟨c, List.mem_cons_of_mem _ hc⟩
    case delete q' =>
      by_cases e : q = q'
      · subst e; simp [upd] at hq
      · obtain ⟨c, hc⟩ := ih (by simpa [upd, e] using hq)
        exact ⟨c, List.mem_cons_of_mem _ hc⟩
    all_goals
      obtain ⟨c, hc⟩ := ih hq
      exact ⟨c, List.mem_cons_of_mem _ hc⟩

/-- C65, a defect: as long as nobody has subscribed to a queue, what is published to it is lost, although the publisher is told
otherwise. (`PublishTask` says that it makes sure that the queue exists; it does not.) -/
theorem C65_no_subscriber_loses {s' : St} {x : Lbl P} {q : String} {b : Body} (h : Trace dec l s) (hq : ∀ c, .subscribed c q ∉ l)
    (hs : Step dec s x s') (hx : x = .dropped q b ∨ ∃ id, x = .sent id q b) : x = .dropped q b ∧ s' = s := by
  have hd : s.declared q = false := by
    cases e : s.declared q with
    | false => rfl
    | true => obtain ⟨c, hc⟩ := declared_subscribed h e; exact absurd hc (hq c)
  rcases hx with rfl | ⟨id, rfl⟩
  · cases hs; exact ⟨rfl, rfl⟩
  · cases hs
    rename_i h1
    rw [hd] at h1; cases h1

/-- C65, a defect: a task without a queue of its own, as it waits in the queue `pending`, is lost if the coordinator handling it dies: its
message is delivered again and therefore forwarded to `redeliveries`, whose handler publishes it to the queue called `""`, to which
nobody subscribes. -/
theorem C65_redelivered_pending_lost (C : Cfg) (fuel : Nat) {t : Task} (y : Sys) (ht : t.queue = "") (hr : t.redelivered < 5) :
    (∃ p y', coordinatorHandler C fuel (.task "redeliveries" t) = some p ∧ p.exec y = (some none, y') ∧ y'.ds = y.ds ∧
      y'.out = y.out ++ [.task "" { t with redelivered := t.redelivered + 1 }]) ∧
    ∀ {l : List (Lbl P)} {s s' : St} {x : Lbl P} {b : Body}, Trace dec l s → (∀ c, .subscribed c "" ∉ l) → Step dec s x s' →
      (x = .dropped "" b ∨ ∃ id, x = .sent id "" b) → x = .dropped "" b ∧ s' = s := by
  refine ⟨?_, fun h hq hs hx => C65_no_subscriber_loses h hq hs hx⟩
  obtain ⟨p, y', h1, h2, h3, h4⟩ := C18_put_back C fuel y hr
  exact ⟨p, y', h1, h2, h3, h4.trans (congrArg (fun q => y.out ++ [Msg.task q { t with redelivered := t.redelivered + 1 }]) ht)⟩

/-- Steps with their labels. -/
inductive Run (dec : Body → Option P) : List (Lbl P) → St → St → Prop
  | nil (s : St) : Run dec [] s s
  | step {l : List (Lbl P)} {s s' s'' : St} {x : Lbl P} : Run dec l s s' → Step dec s' x s'' → Run dec (x :: l) s s''

theorem Trace.run (h : Trace dec l s) {l' : List (Lbl P)} {s' : St} (hr : Run dec l' s s') : Trace dec (l' ++ l) s' := by
  induction hr with
  | nil => exact h
  | step _ hs ih => exact (ih h).step hs

/-- C65, a defect: a consumer that has been given a message it cannot decode calls its handler no more, until its channel is closed or
it is shut down. -/
theorem C65_wedged {s' : St} {l' : List (Lbl P)} {c : Nat} {m : Item} (hn : c < s.n) (hw : (s.cons c).phase = .wedged m)
    (hu : (s.cons c).up = true) (hr : Run dec l' s s') (hc : .closed c ∉ l') :
    (s'.cons c).phase = .wedged m ∧ ∀ id a p, .called c id a p ∉ l' := by
  suffices H : s.n ≤ s'.n ∧ (s'.cons c).phase = .wedged m ∧ (s'.cons c).up = true ∧ ∀ id a p, .called c id a p ∉ l' from ⟨H.2.1, H.2.2.2⟩
  induction hr with
  | nil => exact ⟨by omega, hw, hu, by simp⟩
  | step hr hs ih =>
    obtain ⟨h0, h1, h2, h3⟩ := ih hn hw hu (fun h => hc (List.mem_cons_of_mem _ h))
    simp only [List.mem_cons, not_or] at hc
    cases hs <;> refine ⟨?_, ?_, ?_, ?_⟩ <;> grind [upd, Phase.selecting]

theorem hangs {s' : St} {l' : List (Lbl P)} {c : Nat} (hn : c < s.n) (hg : (s.cons c).phase = .gone)
    (hreg : (s.cons c).registered = true) (hq : isCoordinatorQueue (s.cons c).queue = true) (hs : s.shut = .no)
    (hr : Run dec l' s s') : .down ∉ l' := by
  suffices H : s.n ≤ s'.n ∧ (s'.cons c).phase = .gone ∧ (s'.cons c).registered = true ∧ isCoordinatorQueue (s'.cons c).queue = true ∧
      (s'.shut = .no ∨ ∃ t, s'.shut = .cancelling t ∧ c ∈ t) ∧ .down ∉ l' from H.2.2.2.2.2
  induction hr with
  | nil => exact ⟨by omega, hg, hreg, hq, .inl hs, by simp⟩
  | step hr hs' ih =>
    obtain ⟨h0, h1, h2, h3, h4, h5⟩ := ih hn hg hreg hq hs
    cases hs' <;> refine ⟨?_, ?_, ?_, ?_, ?_, ?_⟩ <;> grind [upd, Phase.selecting]

/-- C65, a defect: after a subscription of a coordinator has been renewed once (its channel was closed, the goroutine has noticed and
subscribed again), `Shutdown` never returns: it waits for the goroutine of the old subscription. -/
theorem C65_shutdown_hangs {s1 s' : St} {l' : List (Lbl P)} {c n : Nat} {q : String} (h : Trace dec l s)
    (hreg : (s.cons c).registered = true) (hq : isCoordinatorQueue (s.cons c).queue = true) (hr : (s.cons c).phase = .resub)
    (hs : Step dec s (.subscribed n q) s1) (hc : (s1.cons c).phase ≠ .resub) (hrun : Run dec l' s1 s') : .down ∉ l' := by
  have hold := (place_trace h).old
  have hn : c < s.n := Nat.lt_of_not_le fun hle => by simp [(hold c hle).1] at hr
  cases hs
  case subscribe =>
    exfalso
    have : c ≠ s.n := by omega
    exact hc (by simp [upd, this, hr])
  case again c' h1 h2 =>
    have hcc : c = c' := Classical.byContradiction fun e => hc (by
      have : c ≠ s.n := by omega
      simp [upd, this, e, hr])
    subst hcc
    refine hangs (c := c) ?_ ?_ ?_ ?_ ?_ hrun
    · show c < s.n + 1; omega
    · simp [upd]
    · simp [upd, hreg]
    · simp [upd, hq]
    · exact h2

/-- Otherwise `Shutdown` can return as soon as no handler is running: every coordinator subscription it has to cancel is in its
`select`. -/
theorem C65_shutdown_returns {t : List Nat} (hs : s.shut = .cancelling t) (hd : t.Nodup)
    (hc : ∀ c ∈ t, isCoordinatorQueue (s.cons c).queue = true → (s.cons c).phase.selecting = true) :
    ∃ (l' : List (Lbl P)) (s' : St), Run dec l' s s' ∧ .down ∈ l' := by
  induction t generalizing s with
  | nil => exact ⟨_, _, .step (.nil s) (.down s hs), List.mem_cons_self ..⟩
  | cons c t ih =>
    have key : ∀ {x : Lbl P} {s1 s' : St} {l1 : List (Lbl P)}, Step dec s x s1 → Run dec l1 s1 s' → Run dec (l1 ++ [x]) s s' := by
      intro x s1 s' l1 h1 h2
      induction h2 with
      | nil => exact .step (.nil s) h1
      | step _ h3 ih => exact .step (ih h1) h3
    cases hq : isCoordinatorQueue (s.cons c).queue with
    | false =>
      obtain ⟨l', s', h, hm⟩ := ih (s := { s with shut := .cancelling t }) rfl hd.of_cons fun c' hc' => hc c' (by simp [hc'])
      exact ⟨l' ++ [.tau], s', key (.skip s c t hs hq) h, by simp [hm]⟩
    | true =>
      have hsel := hc c (by simp) hq
      obtain ⟨l', s', h, hm⟩ := ih (s := { s with
          shut := .cancelling t
          ready := if (s.cons c).up then requeue s (s.cons c).phase else s.ready
          cons := upd s.cons c { s.cons c with phase := .gone, up := false, registered := false } }) rfl hd.of_cons (by
        intro c' hc' hq'
        have hne : c' ≠ c := fun e => (List.nodup_cons.1 hd).1 (e ▸ hc')
        simp only [upd, if_neg hne] at hq' ⊢
        exact hc c' (by simp [hc']) hq')
      exact ⟨l' ++ [.closed c], s', key (.cancel s c t hs hq hsel) h, by simp [hm]⟩

end Tork.Rabbit

/-! ## Examples -/

namespace Tork.Rabbit.Ex
open Tork.Queues (upd)

/-- A body decodes to its text, except for the text `?`. -/
def dec (b : Body) : Option String := if b.text = "?" then none else some b.text

def task (t : String) : Body := ⟨"*tork.Task", t⟩

/-- The worker dies while it runs a task: the task is delivered again, to another worker, which forwards it to `redeliveries`. -/
theorem redelivered : ∃ (l : List (Lbl String)) (s : St), Trace dec l s ∧ .sent 0 "default" (task "t") ∈ l ∧ calls l 0 = 1 ∧ calls l 1 = 1 ∧
    .forwarded 1 0 1 (task "t") ∈ l ∧ .settled 1 0 true ∈ l ∧ .called 2 1 false "t" ∈ l := by
  have t := Trace.init (dec := dec)
  have t := t.step (.subscribe _ "default")
  have t := t.step (.subscribe _ "default")
  have t := t.step (.subscribe _ "redeliveries")
  have t := t.step (.send _ "default" (task "t") (by simp [upd, St.init]))
  have t := t.step (.deliver _ 0 ⟨0, "default", task "t", false⟩ (by simp [upd, St.init, Consumer.fresh]) (by simp [upd, St.init, Consumer.fresh])
    (by simp [upd, St.init]) (by simp [upd, St.init, Consumer.fresh]))
  have t := t.step (.call _ 0 ⟨0, "default", task "t", false⟩ "t" (by simp [upd]) (by simp) rfl)
  have t := t.step (.close _ 0 (by simp [upd, Consumer.fresh, St.init]))
  have t := t.step (.deliver _ 1 ⟨0, "default", task "t", true⟩ (by simp [upd, St.init, Consumer.fresh]) (by simp [upd, St.init, Consumer.fresh])
    (by simp [upd, St.init, requeue, Phase.held]) (by simp [upd, St.init, Consumer.fresh]))
  have t := t.step (.forward _ 1 ⟨0, "default", task "t", true⟩ "t" (by simp [upd]) rfl rfl rfl (by simp [upd]))
  have t := t.step (.ackAgain _ 1 ⟨0, "default", task "t", true⟩ (by simp [upd]) (by simp [upd, Consumer.fresh, St.init]))
  have t := t.step (.deliver _ 2 ⟨1, "redeliveries", task "t", false⟩ (by simp [upd, St.init, Consumer.fresh]) (by simp [upd, St.init, Consumer.fresh])
    (by simp [upd, St.init]) (by simp [upd, St.init, Consumer.fresh]))
  have t := t.step (.call _ 2 ⟨1, "redeliveries", task "t", false⟩ "t" (by simp [upd]) (by simp) rfl)
  exact ⟨_, _, t, by simp [St.init], by simp [calls, Lbl.isCall], by simp [calls, Lbl.isCall], by simp [St.init], by simp, by simp⟩

/-- A coordinator loses its connection, subscribes again, and is then shut down: the assumptions of `C65_shutdown_hangs`. -/
example : ∃ (l : List (Lbl String)) (s s1 : St) (n : Nat) (q : String), Trace dec l s ∧ (s.cons 0).registered = true ∧
    isCoordinatorQueue (s.cons 0).queue = true ∧ (s.cons 0).phase = .resub ∧ Step dec s (.subscribed n q) s1 ∧ (s1.cons 0).phase ≠ .resub := by
  have t := Trace.init (dec := dec)
  have t := t.step (.subscribe _ "pending")
  have t := t.step (.close _ 0 (by simp [upd, Consumer.fresh, St.init]))
  have t := t.step (.notice _ 0 (by simp [upd]) (by simp [upd, Consumer.fresh, St.init, Phase.selecting]))
  exact ⟨_, _, _, _, _, t, by simp [upd, Consumer.fresh, St.init], (by simp only [upd, St.init, Consumer.fresh]; decide), by simp [upd],
    .again _ 0 (by simp [upd]) rfl, by simp [upd]⟩

/-- A message that cannot be decoded: the assumptions of `C65_wedged`. -/
example : ∃ (l : List (Lbl String)) (s : St) (m : Item), Trace dec l s ∧ 0 < s.n ∧ (s.cons 0).phase = .wedged m ∧ (s.cons 0).up = true := by
  have t := Trace.init (dec := dec)
  have t := t.step (.subscribe _ "default")
  have t := t.step (.send _ "default" (task "?") (by simp [upd, St.init]))
  have t := t.step (.deliver _ 0 ⟨0, "default", task "?", false⟩ (by simp [upd, St.init, Consumer.fresh]) (by simp [upd, St.init, Consumer.fresh])
    (by simp [upd, St.init]) (by simp [upd, St.init, Consumer.fresh]))
  have t := t.step (.wedge _ 0 ⟨0, "default", task "?", false⟩ (by simp [upd]) (by simp) rfl)
  exact ⟨_, _, _, t, by simp [St.init], (by simp [upd]; rfl), by simp [upd, Consumer.fresh, St.init]⟩

end Tork.Rabbit.Ex
