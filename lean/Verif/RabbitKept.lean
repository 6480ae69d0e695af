import Verif.RabbitInv
/-!
# The RabbitMQ broker: no message is lost
-/

namespace Tork.Rabbit
open Tork.Queues (upd)

variable {P : Type}

/-- Every message published to a queue that was not deleted is somewhere, or settled. -/
def Kept (l : List (Lbl P)) (s : St) : Prop :=
  ∀ id q b, Published l id q b → .deleted q ∉ l →
    (∃ a, s.ready id = some ⟨id, q, b, a⟩) ∨ (∃ c a, (s.cons c).up = true ∧ (s.cons c).phase.held = some ⟨id, q, b, a⟩) ∨
    ∃ c ok, .settled c id ok ∈ l

theorem requeue_other {s : St} {p : Phase} {i : Nat} (h : ∀ m, p.held = some m → m.id ≠ i) : requeue s p i = s.ready i := by
  unfold requeue
  cases hp : p.held with
  | none => rfl
  | some m =>
    dsimp only
    split
    · simp [upd, Ne.symm (h m hp)]
    · rfl

set_option maxHeartbeats 4000000 in
theorem kept_step {dec : Body → Option P} {l : List (Lbl P)} {s s' : St} {x : Lbl P} (hp : Place l s) (hi : Kept l s) (h : Step dec s x s') :
    Kept (x :: l) s' := by
  obtain ⟨key, held, old, sub, xexcl, xexcl2, pub, uniq, decl⟩ := hp
  intro id q b hpub hdel
  simp only [List.mem_cons, not_or] at hdel
  rcases published_cons.1 hpub with e | hpub
  · cases h <;> simp only [Lbl.puts, reduceCtorEq, Option.some.injEq, Prod.mk.injEq] at e
    · obtain ⟨rfl, rfl, rfl⟩ := e
      exact .inl ⟨false, by simp [upd]⟩
    · obtain ⟨rfl, rfl, rfl⟩ := e
      exact .inl ⟨false, by simp [upd]⟩
  · have hlt := pub id q b hpub
    have hdec := decl id q b hpub hdel.2
    rcases hi id q b hpub hdel.2 with ⟨a, ha⟩ | ⟨c, a, hup, hh⟩ | ⟨c, ok, hs⟩
    · cases h
      case deliver c0 m h1 h2 h3 h4 =>
        by_cases e : id = m.id
        · subst e
          rw [h3] at ha
          have ha := Option.some.inj ha
          exact .inr (.inl ⟨c0, a, by simp [upd, h1], by simp only [upd, if_true, Phase.held]; rw [← ha]⟩)
        · exact .inl ⟨a, by simp [upd, e, ha]⟩
      case close c0 h1 =>
        refine .inl ⟨a, ?_⟩
        exact (requeue_other fun m' hm => xexcl id _ c0 m' ha h1 hm).trans ha
      case cancel c0 t h1 h2 h3 =>
        refine .inl ⟨a, ?_⟩
        show (if (s.cons c0).up = true then requeue s (s.cons c0).phase else s.ready) id = _
        by_cases hu : (s.cons c0).up = true
        · rw [if_pos hu]
          exact (requeue_other fun m' hm => xexcl id _ c0 m' ha hu hm).trans ha
        · rw [if_neg hu]; exact ha
      all_goals exact .inl ⟨a, by grind [upd, Option.filter_eq_some_iff]⟩
    · have hcn : c ≠ s.n := fun e => by have := (old c (by omega)).2.1; simp [hup] at this
      cases h
      case ackAgain c0 m h1 h2 =>
        by_cases e : c = c0
        · subst e
          rw [h1] at hh; cases hh
          exact .inr (.inr ⟨c, true, List.mem_cons_self ..⟩)
        · exact .inr (.inl ⟨c, a, by simp [upd, e, hup], by simp [upd, e, hh]⟩)
      case settle c0 m ok h1 h2 =>
        by_cases e : c = c0
        · subst e
          rw [h1] at hh; cases hh
          exact .inr (.inr ⟨c, ok, List.mem_cons_self ..⟩)
        · exact .inr (.inl ⟨c, a, by simp [upd, e, hup], by simp [upd, e, hh]⟩)
      case close c0 h1 =>
        by_cases e : c = c0
        · subst e
          exact .inl ⟨true, by simp [requeue, hh, hdec, upd]⟩
        · exact .inr (.inl ⟨c, a, by simp [upd, e, hup], by simp [upd, e, hh]⟩)
      case cancel c0 t h1 h2 h3 =>
        by_cases e : c = c0
        · subst e
          exact .inl ⟨true, by simp [requeue, hh, hdec, upd, hup]⟩
        · exact .inr (.inl ⟨c, a, by simp [upd, e, hup], by simp [upd, e, hh]⟩)
      all_goals exact .inr (.inl ⟨c, a, by grind [upd, Phase.held, Phase.selecting], by grind [upd, Phase.held, Phase.selecting]⟩)
    · exact .inr (.inr ⟨c, ok, List.mem_cons_of_mem _ hs⟩)

end Tork.Rabbit
