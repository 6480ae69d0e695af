import Verif.RabbitInv
/-!
# The RabbitMQ broker: at most one call
-/

namespace Tork.Rabbit
open Tork.Queues (upd)

variable {P : Type}

/-- The step is a call of a handler with message `id`. -/
def Lbl.isCall (id : Nat) : Lbl P → Bool
  | .called _ i _ _ => decide (i = id)
  | _ => false

/-- How often handlers have been called with message `id`. -/
def calls (l : List (Lbl P)) (id : Nat) : Nat := l.countP (Lbl.isCall id)

theorem calls_cons {l : List (Lbl P)} {x : Lbl P} {id : Nat} : calls (x :: l) id = calls l id + if x.isCall id then 1 else 0 := by
  unfold calls; rw [List.countP_cons]

structure Once (l : List (Lbl P)) (s : St) : Prop where
  ready : ∀ i m, s.ready i = some m → m.again = false → calls l i = 0
  got : ∀ c m, (s.cons c).phase = .got m → m.again = false → m.body.isTask = true → calls l m.id = 0
  excl : ∀ i m c m', s.ready i = some m → m.again = false → (s.cons c).phase.held = some m' → m'.id ≠ i
  excl2 : ∀ c c' m m', (s.cons c).phase = .got m → (s.cons c').phase = .got m' → m.again = false → m'.again = false → m.id = m'.id → c = c'
  fresh : ∀ i, s.next ≤ i → calls l i = 0
  once : ∀ id q b, Published l id q b → b.isTask = true → calls l id ≤ 1

theorem isCall_called {c id i : Nat} {a : Bool} {p : P} : (Lbl.called c i a p).isCall id = decide (i = id) := rfl

set_option maxHeartbeats 4000000 in
theorem once_step {dec : Body → Option P} {l : List (Lbl P)} {s s' : St} {x : Lbl P} (hp : Place l s) (hi : Once l s) (h : Step dec s x s') :
    Once (x :: l) s' := by
  obtain ⟨key, held, old, sub, xexcl, xexcl2, pub, uniq, decl⟩ := hp
  obtain ⟨ready, got, excl, excl2, fresh, once⟩ := hi
  cases h <;> refine ⟨?_, ?_, ?_, ?_, ?_, ?_⟩
  all_goals grind [upd, published_cons, Lbl.puts, calls_cons, Lbl.isCall, Phase.held, requeue_some, Consumer.fresh, Option.filter_eq_some_iff]

end Tork.Rabbit
