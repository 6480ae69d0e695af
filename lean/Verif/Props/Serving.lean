import Verif.Serving

/-!
# C87 — starting the HTTP servers of a worker and of the coordinator
-/

namespace Tork.Serving

variable {H : Host}

/-- **C87.** With a configured address: if `start` returns without an error, the address answers; and if no other process answers there, it is
this server that does. -/
theorem C87_serving {p : Nat} {s : State} (h : Steps H (.fixed p) (init (.fixed p)) s) (hr : s.result = some .started) :
    s.port = p ∧ (s.server = .listening ∨ H.answers p = true) := by
  have hi := inv_steps (inv_init H _) h
  have hp : s.port = p := hi.port
  rcases hi.started hr with h1 | ⟨_, _, e, _⟩
  · exact ⟨hp, hp ▸ hi.none h1⟩
  · cases e

/-- **C87.** … and if it returns that the address is in use, another process holds it; any error but that and "unable to start" has come from binding. -/
theorem C87_error {p : Nat} {s : State} {e : Err} (h : Steps H (.fixed p) (init (.fixed p)) s) (hr : s.result = some (.error e)) :
    (e = .inUse → H.taken p = true) ∧ (e = .other → H.refused p = true) := by
  have hi := inv_steps (inv_init H _) h
  have hp : s.port = p := hi.port
  have he := hi.error e hr
  exact ⟨fun e1 => hp ▸ (hi.inUse (e1 ▸ he)).1, fun e1 => hp ▸ (hi.other (e1 ▸ he)).1⟩

/-- **C87.** Without one: if no other process answers at any of the ports, and some port is free, then `start` returns without an error only if this
server listens, at a port of the range that nobody held, all the smaller ones being held by others. -/
theorem C87_dynamic {lo hi : Nat} {s : State} (h : Steps H (.dynamic lo hi) (init (.dynamic lo hi)) s) (hr : s.result = some .started)
    (hq : ∀ p, lo ≤ p → p < hi → H.answers p = false) (hf : ∃ p, lo ≤ p ∧ p < hi ∧ H.taken p = false) :
    s.server = .listening ∧ lo ≤ s.port ∧ s.port < hi ∧ H.taken s.port = false ∧ ∀ p, lo ≤ p → p < s.port → H.taken p = true := by
  have hi' := inv_steps (inv_init H _) h
  obtain ⟨h1, h2, h3⟩ : lo ≤ s.port ∧ (lo < hi → s.port < hi) ∧ ∀ p, lo ≤ p → p < s.port → H.taken p = true := hi'.port
  obtain ⟨f, hf1, hf2, hf3⟩ := hf
  have h4 := h2 (by omega)
  rcases hi'.started hr with hp | ⟨lo', hi2, e, hp, hlt⟩
  · rcases hi'.none hp with hl | ha
    · exact ⟨hl, h1, h4, hi'.listening hl, h3⟩
    · rw [hq _ h1 h4] at ha
      cases ha
  · injection e with e1 e2
    subst e1 e2
    have hne : f ≠ s.port := fun e => by
      rw [e] at hf3
      rw [(hi'.inUse hp).1] at hf3
      cases hf3
    have := h3 f hf1 (by omega)
    rw [hf3] at this
    cases this

/-- **C87.** The server never listens at a port that another process holds, whatever happens. -/
theorem C87_own {m : Mode} {s : State} (h : Steps H m (init m) s) (hl : s.server = .listening) : H.taken s.port = false :=
  (inv_steps (inv_init H _) h).listening hl

/-- **C87.** The address is tried at most 100 times. -/
theorem C87_turns {m : Mode} {s : State} {i : Nat} (h : Steps H m (init m) s) (hp : s.pc = .dial i) : i < 100 :=
  ((inv_steps (inv_init H _) h).turn i (.inr hp)).1

/-- **C87.** The defect: if another process answers at the configured address, there is a run in which `start` returns without an error,
although this server does not listen, then or ever after: it is enough that the goroutine comes to `ListenAndServe` later than 100 ms. -/
theorem C87_another_defect {p : Nat} (ha : H.answers p = true) :
    ∃ s, Steps H (.fixed p) (init (.fixed p)) s ∧ s.result = some .started ∧ ∀ t, Steps H (.fixed p) s t → t.server ≠ .listening := by
  let s1 : State := { port := p, pc := .dial 0 }
  let s2 : State := { port := p, pc := .returned none }
  let s3 : State := { port := p, pc := .returned none, result := some .started }
  have h1 : Step H (.fixed p) (init (.fixed p)) s1 := .tick _ _ 0 rfl
  have h2 : Step H (.fixed p) s1 s2 := .connect _ _ 0 rfl (.inr ha)
  have h3 : Step H (.fixed p) s2 s3 := .fixed p s2 none rfl rfl
  have h := (((Steps.refl _).step h1).step h2).step h3
  refine ⟨s3, h, rfl, fun t ht hl => ?_⟩
  have hi := inv_steps (inv_init H _) (h.trans ht)
  have := hi.listening hl
  rw [show t.port = p from hi.port, H.answers_taken p ha] at this
  cases this

/-- **C87.** The other defect: if all the ports of the range are held by others, `start` can only return without an error (or the process can only end):
and then there is no server. -/
theorem C87_full_defect {lo hi : Nat} (hlt : lo < hi) (hall : ∀ p, lo ≤ p → p < hi → H.taken p = true) :
    (∀ s, Steps H (.dynamic lo hi) (init (.dynamic lo hi)) s → s.server ≠ .listening ∧ ∀ e, s.result ≠ some (.error e)) ∧
    ∃ s, Steps H (.dynamic lo hi) (init (.dynamic lo hi)) s ∧ s.result = some .started ∧ s.server = .gone := by
  constructor
  · intro s h
    have hi' := inv_steps (inv_init H _) h
    obtain ⟨h1, h2, _⟩ : lo ≤ s.port ∧ (lo < hi → s.port < hi) ∧ ∀ p, lo ≤ p → p < s.port → H.taken p = true := hi'.port
    refine ⟨fun hl => ?_, fun e he => ?_⟩
    · have := hi'.listening hl
      rw [hall _ h1 (h2 hlt)] at this
      cases this
    · clear hi' h1 h2
      generalize hm : Mode.dynamic lo hi = m at h
      have : s.result ≠ some (.error e) := by
        clear he
        induction h with
        | refl => exact fun e => nomatch e
        | step _ hs ih => subst hm; cases hs <;> grind
      exact this he
  · have key : ∀ n, lo + n < hi → ∃ s, Steps H (.dynamic lo hi) (init (.dynamic lo hi)) s ∧ s = { port := lo + n } := by
      intro n
      induction n with
      | zero => exact fun _ => ⟨_, .refl _, rfl⟩
      | succ n ih =>
        intro hn
        obtain ⟨s, hs, e⟩ := ih (by omega)
        subst e
        have h1 : Step H (.dynamic lo hi) { port := lo + n } { port := lo + n, server := .failed .inUse } :=
          .bindInUse _ { port := lo + n } rfl (hall _ (Nat.le_add_right ..) (by dsimp only; omega))
        have h2 : Step H (.dynamic lo hi) { port := lo + n, server := .failed .inUse }
            { port := lo + n, server := .gone, pc := .returned (some .inUse) } :=
          .receive _ { port := lo + n, server := .failed .inUse } 0 .inUse rfl rfl
        have h3 : Step H (.dynamic lo hi) { port := lo + n, server := .gone, pc := .returned (some .inUse) } { port := lo + n + 1 } :=
          .next lo hi { port := lo + n, server := .gone, pc := .returned (some .inUse) } rfl rfl hn
        exact ⟨_, ((hs.step h1).step h2).step h3, rfl⟩
    obtain ⟨s, hs, e⟩ := key (hi - lo - 1) (by omega)
    have hp : lo + (hi - lo - 1) = hi - 1 := by omega
    rw [hp] at e
    subst e
    have h1 : Step H (.dynamic lo hi) { port := hi - 1 } { port := hi - 1, server := .failed .inUse } :=
      .bindInUse _ { port := hi - 1 } rfl (hall _ (by dsimp only; omega) (by dsimp only; omega))
    have h2 : Step H (.dynamic lo hi) { port := hi - 1, server := .failed .inUse }
        { port := hi - 1, server := .gone, pc := .returned (some .inUse) } :=
      .receive _ { port := hi - 1, server := .failed .inUse } 0 .inUse rfl rfl
    have h3 : Step H (.dynamic lo hi) { port := hi - 1, server := .gone, pc := .returned (some .inUse) }
        { port := hi - 1, server := .gone, pc := .returned (some .inUse), result := some .started } :=
      .exhausted lo hi { port := hi - 1, server := .gone, pc := .returned (some .inUse) } rfl rfl (by dsimp only; omega)
    exact ⟨_, ((hs.step h1).step h2).step h3, rfl, rfl⟩

/-! ## Examples -/

/-- Another process holds port 8001 (and answers there); nothing else. -/
def busy : Host where
  taken p := p == 8001
  answers p := p == 8001
  refused _ := false
  answers_taken _ h := h

/-- Another process holds port 8001 without accepting connections. -/
def silent : Host where
  taken p := p == 8001
  answers _ := false
  refused _ := false
  answers_taken _ h := nomatch h

/-- The worker skips 8001 and listens at 8002: the hypotheses of `C87_dynamic`. -/
example : ∃ s, Steps silent (.dynamic 8001 8100) (init (.dynamic 8001 8100)) s ∧ s.result = some .started ∧ s.port = 8002 := by
  let s1 : State := { port := 8001, server := .failed .inUse }
  let s2 : State := { port := 8001, server := .gone, pc := .returned (some .inUse) }
  let s3 : State := { port := 8002 }
  let s4 : State := { port := 8002, server := .listening }
  let s5 : State := { port := 8002, server := .listening, pc := .dial 0 }
  let s6 : State := { port := 8002, server := .listening, pc := .returned none }
  have h1 : Step silent (.dynamic 8001 8100) (init (.dynamic 8001 8100)) s1 := .bindInUse _ _ rfl rfl
  have h2 : Step silent (.dynamic 8001 8100) s1 s2 := .receive _ s1 0 .inUse rfl rfl
  have h3 : Step silent (.dynamic 8001 8100) s2 s3 := .next 8001 8100 s2 rfl rfl (by decide)
  have h4 : Step silent (.dynamic 8001 8100) s3 s4 := .bind _ s3 rfl rfl rfl
  have h5 : Step silent (.dynamic 8001 8100) s4 s5 := .tick _ s4 0 rfl
  have h6 : Step silent (.dynamic 8001 8100) s5 s6 := .connect _ s5 0 rfl (.inl rfl)
  exact ⟨_, (((((((Steps.refl _).step h1).step h2).step h3).step h4).step h5).step h6).step (.found 8001 8100 s6 rfl rfl), rfl, rfl⟩
example : (∀ p, 8001 ≤ p → p < 8100 → silent.answers p = false) ∧ ∃ p, 8001 ≤ p ∧ p < 8100 ∧ silent.taken p = false :=
  ⟨fun _ _ _ => rfl, 8002, by decide, by decide, rfl⟩
example : busy.answers 8001 = true := rfl
/-- A range of one port, held by another process. -/
example : ∀ p, 8001 ≤ p → p < 8002 → busy.taken p = true := fun p h1 h2 => by
  have : p = 8001 := by omega
  subst this
  rfl

end Tork.Serving
