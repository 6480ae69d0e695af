import Verif.Calls
/-!
# Reasoning about programs that call out

Rules for the properties of all runs of a `Calls.P`. Nothing here models code of `/repo`.
-/

namespace Tork.Calls
variable {C R α β : Type}

/-- every run of `p` has `Φ` -/
def Spec (Φ : List (C × R) → α → Prop) (p : P C R α) : Prop := ∀ n l a n', Runs p n l a n' → Φ l a

theorem Spec.mono {Φ Ψ : List (C × R) → α → Prop} {p : P C R α} (h : Spec Φ p) (h' : ∀ l a, Φ l a → Ψ l a) : Spec Ψ p :=
  fun n l a n' hr => h' l a (h n l a n' hr)

theorem Spec.and {Φ Ψ : List (C × R) → α → Prop} {p : P C R α} (h : Spec Φ p) (h' : Spec Ψ p) : Spec (fun l a => Φ l a ∧ Ψ l a) p :=
  fun n l a n' hr => ⟨h n l a n' hr, h' n l a n' hr⟩

theorem Spec.pure {Φ : List (C × R) → α → Prop} {a : α} (h : Φ [] a) : Spec Φ (Pure.pure a) := by
  rintro n l b n' ⟨rfl, rfl, rfl⟩; exact h

theorem Spec.bind {Φ : List (C × R) → α → Prop} {Ψ : List (C × R) → β → Prop} {p : P C R α} {f : α → P C R β} (h : Spec Φ p)
    (h' : ∀ l a, Φ l a → Spec (fun l' b => Ψ (l ++ l') b) (f a)) : Spec Ψ (p >>= f) := by
  intro n l b n' hr
  obtain ⟨a, l1, l2, m, rfl, h1, h2⟩ := runs_bind.1 hr
  exact h' l1 a (h n l1 a m h1) m l2 b n' h2

theorem Spec.call {Ψ : List (C × R) → β → Prop} {c : C} {f : R → P C R β} (h : ∀ r, Spec (fun l b => Ψ ((c, r) :: l) b) (f r)) :
    Spec Ψ (ask c >>= f) := by
  intro n l b n' hr
  obtain ⟨r, l', rfl, h2⟩ := runs_askBind.1 hr
  exact h r n l' b n' h2

theorem Spec.fresh {Ψ : List (C × R) → β → Prop} {f : Nat → P C R β} (h : ∀ i, Spec Ψ (f i)) : Spec Ψ (newId >>= f) :=
  fun n l b n' hr => h n _ l b n' (runs_idBind.1 hr)

theorem Spec.ite {Φ : List (C × R) → α → Prop} {c : Prop} [Decidable c] {p q : P C R α} (h : c → Spec Φ p) (h' : ¬ c → Spec Φ q) :
    Spec Φ (if c then p else q) := by
  split
  · exact h ‹_›
  · exact h' ‹_›

/-! ## Failures -/

/-- After a failed call only clean-up follows, and the part did not succeed; it fails only for such a call, or because of `X`. -/
structure Outcome {E : Type} (failed cleanup : E → Bool) (X : Prop) (l : List E) (ok : Prop) : Prop where
  stop : ∀ l1 e l2, l = l1 ++ e :: l2 → failed e = true → ∀ e' ∈ l2, cleanup e' = true
  bad : (∃ e ∈ l, failed e = true) → ¬ ok
  cause : ¬ ok → (∃ e ∈ l, failed e = true) ∨ X

theorem append_cut {E : Type} {l l' l1 l2 : List E} {e : E} (h : l ++ l' = l1 ++ e :: l2) :
    (∃ k, l = l1 ++ e :: k ∧ l2 = k ++ l') ∨ ∃ k, l1 = l ++ k ∧ l' = k ++ e :: l2 := by
  rcases List.append_eq_append_iff.1 h with ⟨k, h1, h2⟩ | ⟨k, h1, h2⟩
  · exact .inr ⟨k, h1, h2⟩
  · cases k with
    | nil => exact .inr ⟨[], by simpa using h1.symm, by simpa using h2.symm⟩
    | cons a k =>
      injection h2 with h3 h4
      subst h3
      exact .inl ⟨k, h1, h4⟩

namespace Outcome
variable {E : Type} {failed cleanup : E → Bool}

theorem nil {X ok : Prop} (h : ok ∨ X) : Outcome failed cleanup X [] ok :=
  ⟨fun _ _ _ h => by simp at h, fun ⟨_, h, _⟩ => by simp at h, fun hn => .inr (h.resolve_left hn)⟩

theorem mono {X Y ok ok' : Prop} {l : List E} (h : Outcome failed cleanup X l ok) (hx : X → Y) (ho : ok ↔ ok') :
    Outcome failed cleanup Y l ok' :=
  ⟨h.stop, fun hb ha => h.bad hb (ho.2 ha), fun hn => (h.cause fun h => hn (ho.1 h)).imp id hx⟩

theorem seq (hc : ∀ e, cleanup e = true → failed e = false) {X a b : Prop} {l l' : List E} (h : Outcome failed cleanup X l a)
    (h' : a → Outcome failed cleanup X l' b) (hn : ¬ a → ¬ b ∧ ∀ e ∈ l', cleanup e = true) : Outcome failed cleanup X (l ++ l') b := by
  refine ⟨fun l1 e l2 hl hf => ?_, ?_, ?_⟩
  · rcases append_cut hl with ⟨k, h1, rfl⟩ | ⟨k, rfl, h2⟩
    · have hna : ¬ a := h.bad ⟨e, by rw [h1]; simp, hf⟩
      intro e' he'
      rcases List.mem_append.1 he' with he' | he'
      · exact h.stop l1 e k h1 hf e' he'
      · exact (hn hna).2 e' he'
    · by_cases ha : a
      · exact (h' ha).stop k e l2 h2 hf
      · have := hc e ((hn ha).2 e (by rw [h2]; simp))
        rw [this] at hf; cases hf
  · rintro ⟨e, he, hf⟩ hb
    by_cases ha : a
    · rcases List.mem_append.1 he with he | he
      · exact h.bad ⟨e, he, hf⟩ ha
      · exact (h' ha).bad ⟨e, he, hf⟩ hb
    · exact (hn ha).1 hb
  · intro hnb
    by_cases ha : a
    · rcases (h' ha).cause hnb with ⟨e, he, hf⟩ | hx
      · exact .inl ⟨e, List.mem_append_right _ he, hf⟩
      · exact .inr hx
    · rcases h.cause ha with ⟨e, he, hf⟩ | hx
      · exact .inl ⟨e, List.mem_append_left _ he, hf⟩
      · exact .inr hx

theorem clean (hc : ∀ e, cleanup e = true → failed e = false) {X a : Prop} {l l' : List E} (h : Outcome failed cleanup X l a)
    (hl : ∀ e ∈ l', cleanup e = true) : Outcome failed cleanup X (l ++ l') a := by
  refine h.seq hc (fun ha => ⟨fun l1 e l2 he hf => ?_, ?_, fun hn => absurd ha hn⟩) fun hn => ⟨hn, hl⟩
  · rw [hc e (hl e (by rw [he]; simp))] at hf; cases hf
  · rintro ⟨e, he, hf⟩
    rw [hc e (hl e he)] at hf; cases hf

theorem one {X : Prop} {e : E} : Outcome failed cleanup X [e] (failed e = false) := by
  refine ⟨fun l1 e' l2 hl _ e'' he'' => ?_, ?_, fun h => .inl ⟨e, by simp, by simpa using h⟩⟩
  · cases l1 with
    | nil => obtain ⟨-, rfl⟩ := List.cons.inj hl; simp at he''
    | cons a l1 => simp at hl
  · rintro ⟨e', he', hf⟩ h
    rw [List.mem_singleton.1 he', h] at hf; cases hf

theorem cons (hc : ∀ e, cleanup e = true → failed e = false) {X b : Prop} {l : List E} {e : E}
    (h' : failed e = false → Outcome failed cleanup X l b) (hn : failed e = true → ¬ b ∧ ∀ e ∈ l, cleanup e = true) :
    Outcome failed cleanup X (e :: l) b :=
  one.seq (l := [e]) (l' := l) hc h' fun h => hn (by simpa using h)

end Outcome

/-- every run of `p` has an outcome, `ok` telling which results are successful -/
def Has (failed cleanup : C × R → Bool) (X : Prop) (ok : α → Prop) (p : P C R α) : Prop :=
  Spec (fun l a => Outcome failed cleanup X l (ok a)) p

/-- `p` does nothing but clean up -/
def Cleans (cleanup : C × R → Bool) (p : P C R α) : Prop := Spec (fun l _ => ∀ e ∈ l, cleanup e = true) p

section
variable {failed cleanup : C × R → Bool} {X : Prop}

theorem Has.pure {ok : α → Prop} {a : α} (h : ok a ∨ X) : Has failed cleanup X ok (Pure.pure a) := Spec.pure (.nil h)

theorem Has.bind (hc : ∀ e, cleanup e = true → failed e = false) {ok : α → Prop} {ok' : β → Prop} {p : P C R α} {f : α → P C R β}
    (h : Has failed cleanup X ok p) (h' : ∀ a, ok a → Has failed cleanup X ok' (f a))
    (hn : ∀ a, ¬ ok a → Spec (fun l b => ¬ ok' b ∧ ∀ e ∈ l, cleanup e = true) (f a)) : Has failed cleanup X ok' (p >>= f) := by
  intro n l b n' hr
  obtain ⟨a, l1, l2, m, rfl, h1, h2⟩ := runs_bind.1 hr
  exact (h n l1 a m h1).seq hc (fun ha => h' a ha m l2 b n' h2) fun ha => hn a ha m l2 b n' h2

theorem Has.ask {c : C} : Has failed cleanup X (fun r => failed (c, r) = false) (Calls.ask c) := by
  intro n l r n' hr
  obtain ⟨rfl, rfl⟩ := runs_ask.1 hr
  exact .one

theorem Has.call (hc : ∀ e, cleanup e = true → failed e = false) {ok' : β → Prop} {c : C} {f : R → P C R β}
    (h' : ∀ r, failed (c, r) = false → Has failed cleanup X ok' (f r))
    (hn : ∀ r, failed (c, r) = true → Spec (fun l b => ¬ ok' b ∧ ∀ e ∈ l, cleanup e = true) (f r)) :
    Has failed cleanup X ok' (Calls.ask c >>= f) :=
  Has.ask.bind hc h' fun r hr => hn r (by simpa using hr)

theorem Has.fresh {ok' : β → Prop} {f : Nat → P C R β} (h : ∀ i, Has failed cleanup X ok' (f i)) :
    Has failed cleanup X ok' (newId >>= f) := Spec.fresh h

/-- clean-up afterwards changes nothing -/
theorem Has.after (hc : ∀ e, cleanup e = true → failed e = false) {ok : α → Prop} {p : P C R α} {q : α → P C R β}
    (h : Has failed cleanup X ok p) (hq : ∀ a, Cleans cleanup (q a)) :
    Has failed cleanup X ok (p >>= fun a => q a >>= fun _ => Pure.pure a) := by
  intro n l b n' hr
  obtain ⟨a, l1, l2, m, rfl, h1, h2⟩ := runs_bind.1 hr
  obtain ⟨x, l3, l4, m', rfl, h3, rfl, rfl, rfl⟩ := runs_bind.1 h2
  rw [List.append_nil]
  exact (h n l1 b m h1).clean hc (hq b m l3 x _ h3)

theorem fails_pure {ok : α → Prop} {a : α} (h : ¬ ok a) : Spec (fun l b => ¬ ok b ∧ ∀ e ∈ l, cleanup e = true) (Pure.pure a : P C R α) :=
  Spec.pure ⟨h, by simp⟩

end

/-! ## Every call -/

/-- every call of `p` satisfies `Q` -/
def Each (Q : C × R → Prop) (p : P C R α) : Prop := Spec (fun l _ => ∀ e ∈ l, Q e) p

section
variable {Q : C × R → Prop}

theorem Each.pure {a : α} : Each Q (Pure.pure a : P C R α) := Spec.pure (by simp)

theorem Each.bind {p : P C R α} {f : α → P C R β} (h : Each Q p) (h' : ∀ a, Each Q (f a)) : Each Q (p >>= f) :=
  Spec.bind h fun l a hl => (h' a).mono fun l' b hl' => by
    intro e he
    rcases List.mem_append.1 he with he | he
    · exact hl e he
    · exact hl' e he

/-- with what is known of the result -/
theorem Each.bind' {Φ : List (C × R) → α → Prop} {p : P C R α} {f : α → P C R β} (h : Each Q p) (hp : Spec Φ p)
    (h' : ∀ l a, Φ l a → Each Q (f a)) : Each Q (p >>= f) :=
  Spec.bind (Spec.and h hp) fun l a hl => (h' l a hl.2).mono fun l' b hl' => by
    intro e he
    rcases List.mem_append.1 he with he | he
    · exact hl.1 e he
    · exact hl' e he

theorem Each.call {c : C} {f : R → P C R β} (h : ∀ r, Q (c, r)) (h' : ∀ r, Each Q (f r)) : Each Q (Calls.ask c >>= f) :=
  Spec.call fun r => (h' r).mono fun _ _ hl' => List.forall_mem_cons.2 ⟨h r, hl'⟩

theorem Each.fresh {f : Nat → P C R β} (h : ∀ i, Each Q (f i)) : Each Q (newId >>= f) := Spec.fresh h

theorem Each.ite {c : Prop} [Decidable c] {p q : P C R α} (h : c → Each Q p) (h' : ¬ c → Each Q q) : Each Q (if c then p else q) :=
  Spec.ite h h'

theorem Each.mono {Q' : C × R → Prop} {p : P C R α} (h : Each Q p) (hq : ∀ e, Q e → Q' e) : Each Q' p :=
  Spec.mono h fun _ _ hl e he => hq e (hl e he)

end
end Tork.Calls
