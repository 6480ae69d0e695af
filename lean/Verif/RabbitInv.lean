import Verif.Rabbit
/-!
# The RabbitMQ broker: invariants
-/

namespace Tork.Rabbit
open Tork.Queues (upd)

variable {P : Type}

/-- The message put into a queue by a step: by a publisher, or by a consumer forwarding a redelivered task. -/
def Lbl.puts : Lbl P → Option (Nat × String × Body)
  | .sent id q b => some (id, q, b)
  | .forwarded _ _ id b => some (id, "redeliveries", b)
  | _ => none

/-- Message `id` with body `b` was put into queue `q`. -/
def Published (l : List (Lbl P)) (id : Nat) (q : String) (b : Body) : Prop := ∃ x ∈ l, x.puts = some (id, q, b)

theorem published_cons {l : List (Lbl P)} {id : Nat} {q : String} {b : Body} {x : Lbl P} :
    Published (x :: l) id q b ↔ x.puts = some (id, q, b) ∨ Published l id q b := by
  unfold Published; simp

/-! ## Where messages are -/

structure Place (l : List (Lbl P)) (s : St) : Prop where
  key : ∀ i m, s.ready i = some m → m.id = i ∧ i < s.next ∧ s.declared m.queue = true ∧ Published l i m.queue m.body
  held : ∀ c m, (s.cons c).phase.held = some m → m.id < s.next ∧ m.queue = (s.cons c).queue ∧ Published l m.id m.queue m.body
  old : ∀ c, s.n ≤ c → (s.cons c).phase = .gone ∧ (s.cons c).up = false ∧ (s.cons c).registered = false
  sub : ∀ c, c < s.n → .subscribed c (s.cons c).queue ∈ l
  excl : ∀ i m c m', s.ready i = some m → (s.cons c).up = true → (s.cons c).phase.held = some m' → m'.id ≠ i
  excl2 : ∀ c c' m m', (s.cons c).up = true → (s.cons c').up = true → (s.cons c).phase.held = some m →
    (s.cons c').phase.held = some m' → m.id = m'.id → c = c'
  pub : ∀ id q b, Published l id q b → id < s.next
  uniq : ∀ id q b q' b', Published l id q b → Published l id q' b' → q = q' ∧ b = b'
  decl : ∀ id q b, Published l id q b → .deleted q ∉ l → s.declared q = true

theorem requeue_some {s : St} {p : Phase} {i : Nat} {m : Item} (h : requeue s p i = some m) :
    (s.ready i = some m ∧ ∀ m0, p.held = some m0 → m0.id = i → s.declared m0.queue = false) ∨
    ∃ m0, p.held = some m0 ∧ m0.id = i ∧ m = { m0 with again := true } ∧ s.declared m0.queue = true := by
  unfold requeue at h
  cases hp : p.held with
  | none => rw [hp] at h; exact .inl ⟨h, fun m0 h0 => by cases h0⟩
  | some m0 =>
    rw [hp] at h
    dsimp only at h
    cases hd : s.declared m0.queue with
    | false => rw [hd] at h; exact .inl ⟨h, fun m1 h1 _ => by cases h1; exact hd⟩
    | true =>
      rw [hd] at h
      simp only [if_true, upd] at h
      by_cases e : i = m0.id
      · rw [if_pos e] at h
        cases h
        exact .inr ⟨m0, rfl, e.symm, rfl, hd⟩
      · rw [if_neg e] at h
        exact .inl ⟨h, fun m1 h1 h2 => by cases h1; exact absurd h2.symm e⟩

set_option maxHeartbeats 4000000 in
theorem place_step {dec : Body → Option P} {l : List (Lbl P)} {s s' : St} {x : Lbl P} (hi : Place l s) (h : Step dec s x s') :
    Place (x :: l) s' := by
  obtain ⟨key, held, old, sub, excl, excl2, pub, uniq, decl⟩ := hi
  cases h <;> refine ⟨?_, ?_, ?_, ?_, ?_, ?_, ?_, ?_, ?_⟩
  case close.refine_1 | close.refine_5 | cancel.refine_1 | cancel.refine_5 =>
    grind [upd, published_cons, Lbl.puts, requeue_some, Option.filter_eq_some_iff]
  case delete.refine_1 | delete.refine_5 =>
    grind [upd, published_cons, Lbl.puts, requeue_some, Option.filter_eq_some_iff]
  all_goals grind [upd, published_cons, Lbl.puts, Phase.held, requeue, Consumer.fresh, Phase.selecting]

end Tork.Rabbit
