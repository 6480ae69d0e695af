import Verif.RabbitInv
/-!
# The RabbitMQ broker: why messages are acknowledged
-/

namespace Tork.Rabbit
open Tork.Queues (upd)

variable {P : Type}

/-- Why consumer `c` may acknowledge message `id`: its handler has returned without error, or the message is a task that has been
delivered before and was forwarded, or could not be. -/
def Reason (l : List (Lbl P)) (c id : Nat) : Prop :=
  .returned c id true ∈ l ∨
  ∃ q b, Published l id q b ∧ b.isTask = true ∧ ((∃ i, .forwarded c id i b ∈ l) ∨ .unforwarded c id ∈ l)

theorem Reason.cons {l : List (Lbl P)} {c id : Nat} (h : Reason l c id) (x : Lbl P) : Reason (x :: l) c id := by
  rcases h with h | ⟨q, b, h1, h2, h3⟩
  · exact .inl (List.mem_cons_of_mem _ h)
  · refine .inr ⟨q, b, published_cons.2 (.inr h1), h2, ?_⟩
    rcases h3 with ⟨i, h3⟩ | h3
    · exact .inl ⟨i, List.mem_cons_of_mem _ h3⟩
    · exact .inr (List.mem_cons_of_mem _ h3)

structure Why (dec : Body → Option P) (l : List (Lbl P)) (s : St) : Prop where
  handling : ∀ c m, (s.cons c).phase = .handling m → ∃ a p, .called c m.id a p ∈ l
  settle : ∀ c m ok, (s.cons c).phase = .settle m ok → .returned c m.id ok ∈ l
  ack : ∀ c m, (s.cons c).phase = .ack m → m.again = true ∧ m.body.isTask = true ∧ ((∃ i, .forwarded c m.id i m.body ∈ l) ∨ .unforwarded c m.id ∈ l)
  called : ∀ c id a p, .called c id a p ∈ l → ∃ q b, Published l id q b ∧ dec b = some p ∧ .subscribed c q ∈ l ∧ ¬ (a = true ∧ b.isTask = true)
  returned : ∀ c id ok, .returned c id ok ∈ l → ∃ a p, .called c id a p ∈ l
  accepted : ∀ c id, .settled c id true ∈ l → Reason l c id
  rejected : ∀ c id, .settled c id false ∈ l → .returned c id false ∈ l

set_option maxHeartbeats 4000000 in
theorem why_step {dec : Body → Option P} {l : List (Lbl P)} {s s' : St} {x : Lbl P} (hp : Place l s) (hi : Why dec l s) (h : Step dec s x s') :
    Why dec (x :: l) s' := by
  obtain ⟨key, held, old, sub, xexcl, xexcl2, pub, uniq, decl⟩ := hp
  obtain ⟨handling, settle, ack, called, returned, accepted, rejected⟩ := hi
  cases h <;> refine ⟨?_, ?_, ?_, ?_, ?_, ?_, ?_⟩
  case ackAgain.refine_6 c0 m h1 h2 =>
    intro c id hm
    rcases List.mem_cons.1 hm with e | hm
    · cases e
      obtain ⟨_, b1, b2⟩ := ack c0 m h1
      exact Reason.cons (.inr ⟨m.queue, m.body, (held c0 m (by rw [h1]; rfl)).2.2, b1, b2⟩) _
    · exact (accepted c id hm).cons _
  case settle.refine_6 c0 m ok h1 h2 =>
    intro c id hm
    rcases List.mem_cons.1 hm with e | hm
    · cases e
      exact Reason.cons (.inl (settle c0 m true h1)) _
    · exact (accepted c id hm).cons _
  all_goals first
    | grind [upd, published_cons, Lbl.puts, Phase.held, Consumer.fresh]
    | exact fun c id hm => (List.mem_cons.1 hm).elim (fun e => by cases e) fun hm => (accepted c id hm).cons _

end Tork.Rabbit
