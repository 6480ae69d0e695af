import Verif.Capacity
/-!
# C90 — how much a worker does at once, and its heart beat
-/

namespace Tork.Capacity

/-- How often `Start` subscribes to a queue: its concurrency if it was configured and is not a coordinator's. -/
theorem C90_subscriptions (cfg : List (String × Int)) (hn : (cfg.map Prod.fst).Nodup) (q : String) (n : Int) (h : (q, n) ∈ cfg) :
    (subscriptions cfg).count q = if isCoordinatorQueue q then 0 else n.toNat := by
  induction cfg with
  | nil => simp at h
  | cons a l ih =>
    obtain ⟨q', n'⟩ := a
    have hl : ∀ l : List (String × Int), q ∉ l.map Prod.fst → (subscriptions l).count q = 0 := by
      intro l hq
      rw [List.count_eq_zero]
      intro hm
      simp only [subscriptions, List.mem_flatMap] at hm
      obtain ⟨⟨a, m⟩, hm, hm'⟩ := hm
      by_cases hc : isCoordinatorQueue a = true
      · simp [hc] at hm'
      · simp only [hc] at hm'
        have := (List.mem_replicate.mp hm').2
        subst this
        exact hq (List.mem_map.mpr ⟨_, hm, rfl⟩)
    have e : (subscriptions ((q', n') :: l)).count q =
        (if isCoordinatorQueue q' then [] else List.replicate n'.toNat q').count q + (subscriptions l).count q := by
      rw [← List.count_append]; rfl
    simp only [List.map_cons, List.nodup_cons] at hn
    rw [e]
    rcases List.mem_cons.mp h with h | h
    · cases h
      rw [hl l hn.1]
      split <;> simp
    · have hne : q' ≠ q := fun e => hn.1 (e ▸ List.mem_map.mpr ⟨_, h, rfl⟩)
      rw [ih hn.2 h]
      split
      · simp
      · rw [List.count_replicate]; simp [hne]

/-- … of the queues that were configured, and `default` once if none was. -/
theorem C90_queues (cfg : List (String × Int)) (hn : (cfg.map Prod.fst).Nodup) :
    (∀ q n, (q, n) ∈ cfg → (subscriptions (queues cfg)).count q = if isCoordinatorQueue q then 0 else n.toNat) ∧
    (cfg ≠ [] → ∀ q, q ∉ cfg.map Prod.fst → (subscriptions (queues cfg)).count q = 0) ∧
    (cfg = [] → subscriptions (queues cfg) = ["default"]) := by
  refine ⟨fun q n h => ?_, fun hc q hq => ?_, ?_⟩
  · have : queues cfg = cfg := by
      unfold queues
      rw [if_neg]
      intro e
      rw [List.length_eq_zero_iff.mp e] at h
      exact nomatch h
    rw [this]
    exact C90_subscriptions cfg hn q n h
  · have : queues cfg = cfg := by
      unfold queues
      rw [if_neg]
      exact fun e => hc (List.length_eq_zero_iff.mp e)
    rw [this, List.count_eq_zero]
    intro hm
    simp only [subscriptions, List.mem_flatMap] at hm
    obtain ⟨⟨a, m⟩, hm, hm'⟩ := hm
    split at hm'
    · exact nomatch hm'
    · exact hq ((List.mem_replicate.mp hm').2 ▸ List.mem_map.mpr ⟨_, hm, rfl⟩)
  · rintro rfl; decide +kernel

/-- A queue that was not configured has no subscription. -/
theorem C90_others (cfg : List (String × Int)) (q : String) (h : q ∉ cfg.map Prod.fst ∨ isCoordinatorQueue q = true) : q ∉ subscriptions cfg := by
  intro hm
  simp only [subscriptions, List.mem_flatMap] at hm
  obtain ⟨⟨a, m⟩, hm, hm'⟩ := hm
  by_cases hc : isCoordinatorQueue a = true
  · simp [hc] at hm'
  · simp only [hc] at hm'
    have := (List.mem_replicate.mp hm').2
    subst this
    rcases h with h | h
    · exact h (List.mem_map.mpr ⟨_, hm, rfl⟩)
    · exact hc h

/-- The number of tasks going on in the subscriptions `0 … n-1` that satisfy `p`. -/
def going (pc : Nat → Pc) (p : Nat → Bool) : Nat → Nat
  | 0 => 0
  | n + 1 => going pc p n + if pc n = .running ∧ p n = true then 1 else 0

/-- The number of tasks going on. -/
def active (s : S) : Nat := going s.pc (fun _ => true) s.subs

/-- The number of tasks of the queue `q` going on. -/
def activeOf (cs : List String) (s : S) (q : String) : Nat := going s.pc (fun i => cs[i]? == some q) s.subs

theorem going_le (s : Nat → Pc) (p : Nat → Bool) (n : Nat) : going s p n ≤ n := by
  induction n with
  | zero => exact Nat.le_refl 0
  | succ n ih => simp only [going]; split <;> omega

theorem going_congr (s s' : Nat → Pc) (p : Nat → Bool) (n : Nat) (h : ∀ i, i < n → (s' i = .running ↔ s i = .running)) :
    going s' p n = going s p n := by
  induction n with
  | zero => rfl
  | succ n ih =>
    simp only [going]
    rw [ih fun i hi => h i (by omega)]
    simp only [h n (by omega)]

/-- One more. -/
theorem going_run (pc : Nat → Pc) (i n : Nat) (hi : i < n) (h1 : pc i ≠ .running) :
    going (upd pc i .running) (fun _ => true) n = going pc (fun _ => true) n + 1 := by
  induction n with
  | zero => omega
  | succ n ih =>
    simp only [going]
    by_cases e : i = n
    · subst e
      rw [going_congr pc (upd pc i .running) _ i (fun j hj => by simp [upd, Nat.ne_of_lt hj])]
      simp [upd, h1]
    · rw [ih (by omega)]
      have hni : ¬ n = i := fun h => e h.symm
      simp only [upd, hni, if_false]
      omega

structure Inv (cs : List String) (s : S) : Prop where
  le : s.subs ≤ cs.length
  out : ∀ i, s.subs ≤ i → s.pc i = .idle
  count : s.count = active s
  measured : ∀ n, s.beat = .measured n → 0 ≤ n ∧ n ≤ cs.length
  sent : ∀ n, n ∈ s.sent → 0 ≤ n ∧ n ≤ cs.length

theorem inv_step {cs : List String} {s s' : S} (h : Inv cs s) (hs : Step cs s s') : Inv cs s' := by
  obtain ⟨h1, h2, h3, h4, h5⟩ := h
  have hlt : ∀ i, s.pc i ≠ .idle → i < s.subs := fun i hi => by
    rcases Nat.lt_or_ge i s.subs with h | h
    · exact h
    · exact absurd (h2 i h) hi
  cases hs with
  | subscribe hl =>
    refine ⟨hl, fun i hi => h2 i (Nat.le_of_succ_le hi), ?_, h4, h5⟩
    have e : going s.pc (fun _ => true) (s.subs + 1) = going s.pc (fun _ => true) s.subs := by
      simp [going, h2 s.subs (Nat.le_refl _)]
    show s.count = ((going s.pc (fun _ => true) (s.subs + 1) : Nat) : Int)
    rw [h3, e]
    rfl
  | begin => exact ⟨h1, h2, h3, (fun _ e => nomatch e), h5⟩
  | take i hi hp =>
    refine ⟨h1, fun j hj => ?_, ?_, h4, h5⟩
    · have : ¬ j = i := by intro e; subst e; exact absurd hj (by simpa using hi)
      show upd s.pc i .handling j = .idle
      simp only [upd, this, if_false]; exact h2 j hj
    · rw [h3]
      show ((going s.pc _ s.subs : Nat) : Int) = ((going (upd s.pc i _) _ s.subs : Nat) : Int)
      rw [going_congr s.pc (upd s.pc i _) _ s.subs (fun j _ => ?_)]
      · show upd s.pc i .handling j = .running ↔ _
        simp only [upd]; split
        · rename_i e; subst e; simp [hp]
        · rfl
  | run i hp =>
    have hi := hlt i (by rw [hp]; decide)
    refine ⟨h1, fun j hj => ?_, ?_, h4, h5⟩
    · have : ¬ j = i := by intro e; subst e; exact absurd hj (by simpa using hi)
      show upd s.pc i .running j = .idle
      simp only [upd, this, if_false]; exact h2 j hj
    · have := going_run s.pc i s.subs hi (by rw [hp]; decide)
      show s.count + 1 = ((going (upd s.pc i .running) _ s.subs : Nat) : Int)
      rw [this, h3]
      simp [active]
  | ran i hp =>
    have hi := hlt i (by rw [hp]; decide)
    refine ⟨h1, fun j hj => ?_, ?_, h4, h5⟩
    · have : ¬ j = i := by intro e; subst e; exact absurd hj (by simpa using hi)
      show upd s.pc i .handling j = .idle
      simp only [upd, this, if_false]; exact h2 j hj
    · have := going_run (upd s.pc i .handling) i s.subs hi (by simp [upd])
      have e : upd (upd s.pc i .handling) i .running = s.pc := by
        funext j; simp only [upd]; split
        · rename_i e; rw [e, hp]
        · rfl
      rw [e] at this
      show s.count - 1 = ((going (upd s.pc i .handling) _ s.subs : Nat) : Int)
      rw [h3]
      show ((going s.pc _ s.subs : Nat) : Int) - 1 = _
      rw [this]
      simp
  | done i hp =>
    have hi := hlt i (by rw [hp]; decide)
    refine ⟨h1, fun j hj => ?_, ?_, h4, h5⟩
    · have : ¬ j = i := by intro e; subst e; exact absurd hj (by simpa using hi)
      show upd s.pc i .idle j = .idle
      simp only [upd, this, if_false]; exact h2 j hj
    · rw [h3]
      show ((going s.pc _ s.subs : Nat) : Int) = ((going (upd s.pc i _) _ s.subs : Nat) : Int)
      rw [going_congr s.pc (upd s.pc i _) _ s.subs (fun j _ => ?_)]
      · show upd s.pc i .idle j = .running ↔ _
        simp only [upd]; split
        · rename_i e; subst e; simp [hp]
        · rfl
  | measure =>
    refine ⟨h1, h2, h3, ?_, h5⟩
    intro n e
    injection e with e
    subst e
    rw [h3]
    have := going_le s.pc (fun _ => true) s.subs
    simp only [active]
    omega
  | publish n hb =>
    refine ⟨h1, h2, h3, (fun _ e => nomatch e), fun m hm => ?_⟩
    rcases List.mem_cons.mp hm with e | hm
    · subst e; exact h4 m hb
    · exact h5 m hm
  | again => exact ⟨h1, h2, h3, (fun _ e => nomatch e), h5⟩
  | stop => exact ⟨h1, h2, h3, h4, h5⟩
  | meet => exact ⟨h1, h2, h3, (fun _ e => nomatch e), h5⟩

theorem inv_steps {cs : List String} {s s' : S} (hr : Steps cs s s') (h : Inv cs s) : Inv cs s' := by
  induction hr with
  | refl => exact h
  | step _ hs ih => exact inv_step ih hs

theorem inv_reach {cs : List String} {s : S} (h : Steps cs {} s) : Inv cs s :=
  inv_steps h ⟨Nat.zero_le _, (fun _ _ => rfl), rfl, (fun _ e => nomatch e), (fun _ e => nomatch e)⟩

/-- **C90, capacity.** At no time does a worker run more tasks of a queue than it has subscriptions to it. -/
theorem C90_capacity {cs : List String} {s : S} (h : Steps cs {} s) (q : String) : activeOf cs s q ≤ cs.count q := by
  have key : ∀ (cs : List String) (n : Nat), n ≤ cs.length → going s.pc (fun i => cs[i]? == some q) n ≤ (cs.take n).count q := by
    intro cs n
    induction n with
    | zero => intro _; exact Nat.le_refl 0
    | succ n ih =>
      intro hn
      have hn' : n < cs.length := hn
      have := ih (Nat.le_of_lt hn')
      rw [List.take_succ_eq_append_getElem hn', List.count_append]
      simp only [going]
      by_cases e : cs[n] = q
      · simp only [e, List.count_cons_self]
        split <;> omega
      · rw [if_neg (by rw [List.getElem?_eq_getElem hn']; simp [e])]
        omega
  have hl := (inv_reach h).le
  exact Nat.le_trans (key cs s.subs hl) ((List.take_sublist _ _).count_le q)

/-- … nor more tasks in all than it has subscriptions. -/
theorem C90_total {cs : List String} {s : S} (h : Steps cs {} s) : active s ≤ cs.length :=
  Nat.le_trans (going_le s.pc _ _) (inv_reach h).le

/-- **C90, the number in a heart beat** is the number of tasks going on when it was read. -/
theorem C90_number {cs : List String} {s s' : S} (h : Steps cs {} s) (hs : Step cs s s') (n : Int)
    (h1 : s.beat ≠ .measured n) (h2 : s'.beat = .measured n) : n = active s := by
  have := (inv_reach h).count
  cases hs with
  | measure =>
    injection h2 with e
    rw [← e, this]
  | _ => first | exact absurd h2 h1 | exact nomatch h2

/-- … and every heart beat carries a number so read. -/
theorem C90_sent {cs : List String} {s : S} (h : Steps cs {} s) (n : Int) (hn : n ∈ s.sent) :
    ∃ a b, Steps cs {} a ∧ Step cs a b ∧ Steps cs b s ∧ a.beat = .measuring ∧ n = active a := by
  have key : ∀ {s : S}, Steps cs {} s →
      (∀ n, s.beat = .measured n → ∃ a b, Steps cs {} a ∧ Step cs a b ∧ Steps cs b s ∧ a.beat = .measuring ∧ n = active a) ∧
      ∀ n, n ∈ s.sent → ∃ a b, Steps cs {} a ∧ Step cs a b ∧ Steps cs b s ∧ a.beat = .measuring ∧ n = active a := by
    intro s h
    induction h with
    | refl => exact ⟨(fun _ e => nomatch e), (fun _ e => nomatch e)⟩
    | step hr hs ih =>
      rename_i a b
      obtain ⟨ih1, ih2⟩ := ih
      have lift : ∀ n : Int, (∃ x y, Steps cs {} x ∧ Step cs x y ∧ Steps cs y a ∧ x.beat = .measuring ∧ n = active x) →
          ∃ x y, Steps cs {} x ∧ Step cs x y ∧ Steps cs y b ∧ x.beat = .measuring ∧ n = active x :=
        fun n ⟨x, y, p1, p2, p3, p4, p5⟩ => ⟨x, y, p1, p2, p3.step hs, p4, p5⟩
      refine ⟨fun n e => ?_, fun n hm => ?_⟩
      · by_cases hb : a.beat = .measured n
        · exact lift n (ih1 n hb)
        · refine ⟨a, b, hr, hs, .refl, ?_, C90_number hr hs n hb e⟩
          cases hs with
          | measure hm => exact hm
          | _ => first | exact absurd e hb | exact nomatch e
      · by_cases hb : n ∈ a.sent
        · exact lift n (ih2 n hb)
        · cases hs with
          | publish m hm' =>
            rcases List.mem_cons.mp hm with e | hm
            · subst e; exact lift n (ih1 n hm')
            · exact absurd hm hb
          | _ => exact absurd hm hb
  exact (key h).2 n hn

/-- **C90, silence.** Once a call of `Stop` has got past its first step, no heart beat is sent any more. -/
theorem C90_silent {cs : List String} {s s' : S} (h : Steps cs {} s) (hs : 0 < s.stopped) (hr : Steps cs s s') : s'.sent = s.sent := by
  have key : ∀ {s : S}, Steps cs {} s → 0 < s.stopped → s.beat = .gone := by
    intro s h
    induction h with
    | refl => intro h; exact absurd h (by decide)
    | step _ hs ih =>
      intro h
      cases hs with
      | meet => rfl
      | measure hb => have := ih h; rw [this] at hb; exact nomatch hb
      | publish _ hb => have := ih h; rw [this] at hb; exact nomatch hb
      | again hb => have := ih h; rw [this] at hb; exact nomatch hb
      | begin _ hb => have := ih h; rw [this] at hb; exact nomatch hb
      | _ => exact ih h
  have : s'.beat = .gone ∧ s'.sent = s.sent := by
    induction hr with
    | refl => exact ⟨key h hs, rfl⟩
    | step _ hs ih =>
      obtain ⟨i1, i2⟩ := ih
      cases hs with
      | meet hb => rw [i1] at hb; exact nomatch hb
      | measure hb => rw [i1] at hb; exact nomatch hb
      | publish _ hb => rw [i1] at hb; exact nomatch hb
      | again hb => rw [i1] at hb; exact nomatch hb
      | begin _ hb => rw [i1] at hb; exact nomatch hb
      | _ => exact ⟨i1, i2⟩
  exact this.2

/-- A worker has one heart beat to stop: at most one call of `Stop` gets past its first step. -/
theorem C90_second_stop_waits {cs : List String} {s : S} (h : Steps cs {} s) : s.stopped ≤ 1 := by
  have key : (s.beat ≠ .gone → s.stopped = 0) ∧ s.stopped ≤ 1 := by
    induction h with
    | refl => exact ⟨fun _ => rfl, Nat.zero_le _⟩
    | step _ hs ih =>
      obtain ⟨i1, i2⟩ := ih
      cases hs with
      | meet hb =>
        have := i1 (by rw [hb]; decide)
        refine ⟨fun h => absurd rfl h, ?_⟩
        show _ + 1 ≤ 1
        omega
      | measure hb => exact ⟨fun _ => i1 (by rw [hb]; decide), i2⟩
      | publish _ hb => exact ⟨fun _ => i1 (by rw [hb]; exact Beat.noConfusion), i2⟩
      | again hb => exact ⟨fun _ => i1 (by rw [hb]; decide), i2⟩
      | begin _ hb => exact ⟨fun _ => i1 (by rw [hb]; decide), i2⟩
      | _ => exact ⟨i1, i2⟩
  exact key.2

/-- The defect: no call of `Stop` on a worker whose `Start` has not come to its end (because it failed, say) gets past its first step. -/
theorem C90_stop_unstarted_defect {cs : List String} {s : S} (hall : Steps cs {} s) (hq : s.subs < cs.length) : s.stopped = 0 := by
  have key : ∀ {s : S}, Steps cs {} s → s.subs ≤ cs.length ∧ (s.subs < cs.length → s.beat = .unborn ∧ s.stopped = 0) := by
    intro s h
    induction h with
    | refl => exact ⟨Nat.zero_le _, fun _ => ⟨rfl, rfl⟩⟩
    | step hr hs ih =>
      obtain ⟨i0, i1⟩ := ih
      cases hs with
      | subscribe hl => exact ⟨hl, fun h => i1 (Nat.lt_of_succ_lt h)⟩
      | begin he => exact ⟨i0, fun h => absurd h (by rw [he]; exact Nat.lt_irrefl _)⟩
      | measure hb => exact ⟨i0, fun h => by have := (i1 h).1; rw [this] at hb; exact nomatch hb⟩
      | publish _ hb => exact ⟨i0, fun h => by have := (i1 h).1; rw [this] at hb; exact nomatch hb⟩
      | again hb => exact ⟨i0, fun h => by have := (i1 h).1; rw [this] at hb; exact nomatch hb⟩
      | meet hb => exact ⟨i0, fun h => by have := (i1 h).1; rw [this] at hb; exact nomatch hb⟩
      | _ => exact ⟨i0, i1⟩
  exact ((key hall).2 hq).2

/-! ### A concrete case -/

example : subscriptions (queues []) = ["default"] := by decide +kernel
example : subscriptions (queues [("gpu", 2), ("pending", 3), ("default", 1), ("off", -1)]) = ["gpu", "gpu", "default"] := by decide +kernel

/-- Two tasks of `gpu` at once; the heart beat says 2; the worker is stopped. -/
example : ∃ s, Steps (subscriptions [("gpu", 2)]) {} s ∧ s.sent = [2] ∧ s.stopped = 1 ∧ active s = 2 ∧
    activeOf (subscriptions [("gpu", 2)]) s "gpu" = 2 := by
  have hc : subscriptions [("gpu", 2)] = ["gpu", "gpu"] := by decide +kernel
  rw [hc]
  refine ⟨_, ((((((((((Steps.refl.step (.subscribe _ (by decide))).step (.subscribe _ (by decide))).step (.begin _ rfl rfl)).step
    (.take _ 0 (by decide) rfl)).step (.take _ 1 (by decide) rfl)).step (.run _ 0 rfl)).step (.run _ 1 rfl)).step (.measure _ rfl)).step
    (.publish _ _ rfl)).step (.stop _)).step (.meet _ rfl (by decide)), ?_⟩
  decide

end Tork.Capacity
