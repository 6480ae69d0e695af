import Verif.PodmanRun
import Verif.Outcome
/-!
# C64 — the Podman runtime: failures, order, clean-up
-/

namespace Tork.Podman
open Calls

abbrev Ev := Call × Reply

/-! ## Specification -/

/-- The call failed. That an image is not recorded, or not present, is no failure; failures of the clean-up do not count. -/
def failed : Ev → Bool
  | (.known _, _) | (.inspect _, _) | (.remember _, _) | (.register _ _, _) | (.lookup _, _) | (.forget _, _) | (.rm _, _) | (.rmdir _, _)
  | (.rmTemp _, _) => false
  | (.create _, r) => !r.ok || r.text == ""
  | (.exitCode _, r) => !r.ok || r.text != "0"
  | (_, r) => !r.ok

def cleanup : Ev → Bool
  | (.lookup _, _) | (.forget _, _) | (.rm _, _) | (.rmdir _, _) | (.rmTemp _, _) => true
  | _ => false

/-- what a task needs, and what it must not have -/
def Invalid (t : Task) : Prop := t.id = 0 ∨ t.image = "" ∨ t.name = "" ∨ t.sidecars ≠ []

/-- the operator allows the host directory `src` to be bound into containers -/
def BindPermitted (cfg : Config) (src : String) : Prop :=
  cfg.bindAllowed = true ∧ (cfg.bindSources = [] ∨ ∃ a ∈ cfg.bindSources, cfg.fold a = cfg.fold src)

/-- a mount that is refused, or a network that needs a permission the operator did not give -/
def Forbidden (cfg : Config) (t : Task) : Prop :=
  (∃ m ∈ t.mounts, m.type ≠ "volume" ∧ ¬ (m.type = "bind" ∧ BindPermitted cfg m.source)) ∨ ("host" ∈ t.networks ∧ cfg.hostNetwork = false)

/-! ## Failures -/

theorem cleanup_fine (e : Ev) (h : cleanup e = true) : failed e = false := by
  obtain ⟨c, r⟩ := e
  cases c <;> simp_all [cleanup, failed]

theorem allowed_iff (cfg : Config) (src : String) : (cfg.bindAllowed && sourceAllowed cfg src) = true ↔ BindPermitted cfg src := by
  simp [sourceAllowed, BindPermitted]

section
variable {cfg : Config} {X : Prop}

abbrev Fine (X : Prop) {α : Type} (ok : α → Prop) (p : Prog α) : Prop := Has failed cleanup X ok p

theorem fine_allOk : ∀ {cs : List Call}, (∀ c ∈ cs, ∀ r, failed (c, r) = !r.ok) → Fine X (· = true) (allOk cs)
  | [], _ => .pure (.inl rfl)
  | c :: cs, h => .call cleanup_fine
      (fun r hr => by
        have hr : r.ok = true := by rw [h c (by simp) r] at hr; simpa using hr
        simp only [hr, if_true]
        exact fine_allOk fun c hc => h c (by simp [hc]))
      (fun r hr => by
        have hr : r.ok = false := by rw [h c (by simp) r] at hr; simpa using hr
        simp only [hr, Bool.false_eq_true, if_false]
        exact fails_pure (by simp))

theorem fine_imagePull (image : String) : Fine X (· = true) (imagePull image) := by
  refine .call cleanup_fine (fun r _ => ?_) (fun r hr => by cases hr)
  refine Spec.ite (fun _ => Has.pure (.inl rfl)) fun _ => ?_
  refine Has.call cleanup_fine (fun r _ => ?_) (fun r hr => by cases hr)
  refine Spec.ite (fun _ => ?_) fun _ => ?_
  · exact Has.call cleanup_fine (fun r _ => Has.pure (.inl rfl)) (fun r hr => by cases hr)
  · refine Has.call cleanup_fine (fun r hr => ?_) (fun r hr => ?_)
    · simp only [failed, Bool.not_eq_false'] at hr
      simp only [hr, if_true]
      exact Has.call cleanup_fine (fun r _ => Has.pure (.inl rfl)) (fun r hr => by cases hr)
    · simp only [failed, Bool.not_eq_true'] at hr
      simp only [hr, Bool.false_eq_true, if_false]
      exact fails_pure (by simp)

theorem setup_fails (dir : String) (t : Task) : ∀ c ∈ setup dir t, ∀ r, failed (c, r) = !r.ok := by
  intro c hc r
  simp only [setup, List.mem_cons, List.not_mem_nil, or_false] at hc
  rcases hc with rfl | rfl | rfl | rfl | rfl <;> rfl

theorem files_fails (dir : String) (t : Task) : ∀ c ∈ fileCalls dir t, ∀ r, failed (c, r) = !r.ok := by
  intro c hc r
  simp only [fileCalls, List.mem_flatMap, List.mem_cons, List.not_mem_nil, or_false] at hc
  obtain ⟨f, _, rfl | rfl⟩ := hc <;> rfl

theorem fine_prepare {t : Task} (hx : createArgs cfg t = none → X) : Fine X (fun o => o.isSome = true) (prepare cfg t) := by
  refine (fine_allOk (setup_fails _ t)).bind cleanup_fine (fun ok hok => ?_) fun ok hok => ?_
  · subst hok
    simp only [Bool.not_true, Bool.false_eq_true, if_false]
    refine (fine_imagePull t.image).bind cleanup_fine (fun ok hok => ?_) fun ok hok => ?_
    · subst hok
      simp only [Bool.not_true, Bool.false_eq_true, if_false]
      cases ha : createArgs cfg t with
      | none => exact Has.pure (.inr (hx ha))
      | some args =>
        refine (fine_allOk (files_fails _ t)).bind cleanup_fine (fun ok hok => ?_) fun ok hok => ?_
        · subst hok; exact Has.pure (.inl rfl)
        · have : ok = false := by simpa using hok
          subst this
          exact fails_pure (by simp)
    · have : ok = false := by simpa using hok
      subst this
      exact fails_pure (by simp)
  · have : ok = false := by simpa using hok
    subst this
    exact fails_pure (by simp)

theorem fine_watch (dir c : String) : Fine X (fun o => o.isSome = true) (watch dir c) := by
  refine .call cleanup_fine (fun r hr => ?_) fun r hr => ?_
  · have hr : r.ok = true := by simpa [failed] using hr
    simp only [hr, Bool.not_true, Bool.false_eq_true, if_false]
    refine Has.call cleanup_fine (fun r hr => ?_) fun r hr => ?_
    · have hr : r.ok = true := by simpa [failed] using hr
      simp only [hr, Bool.not_true, Bool.false_eq_true, if_false]
      refine Has.call cleanup_fine (fun r hr => ?_) fun r hr => ?_
      · have hr : r.ok = true ∧ r.text = "0" := by simpa [failed] using hr
        simp only [hr.1, hr.2, Bool.not_true, Bool.false_eq_true, if_false, ne_eq, not_true_eq_false]
        refine Has.call cleanup_fine (fun r hr => ?_) fun r hr => ?_
        · have hr : r.ok = true := by simpa [failed] using hr
          simp only [hr, if_true]
          exact Has.pure (.inl rfl)
        · have hr : r.ok = false := by simpa [failed] using hr
          simp only [hr, Bool.false_eq_true, if_false]
          exact fails_pure (by simp)
      · have hr : r.ok = false ∨ r.text ≠ "0" := by simpa [failed] using hr
        refine Spec.ite (fun _ => fails_pure (by simp)) fun h => Spec.ite (fun _ => fails_pure (by simp)) fun h' => ?_
        exfalso
        rcases hr with hr | hr
        · simp [hr] at h
        · exact h' hr
    · have hr : r.ok = false := by simpa [failed] using hr
      simp only [hr, Bool.not_false, if_true]
      exact fails_pure (by simp)
  · have hr : r.ok = false := by simpa [failed] using hr
    simp only [hr, Bool.not_false, if_true]
    exact fails_pure (by simp)

theorem cleans_stop (t : Task) : Cleans cleanup (stop t) := by
  refine Spec.call fun r => Spec.ite (fun _ => ?_) fun _ => Spec.pure (by simp [cleanup])
  exact Spec.call fun _ => Spec.call fun _ => Spec.pure (by simp [cleanup])

theorem fine_contain (t : Task) (args : List String) : Fine X (fun o => o.isSome = true) (contain cfg t args) := by
  refine .call cleanup_fine (fun r hr => ?_) fun r hr => ?_
  · have hr : r.ok = true ∧ r.text ≠ "" := by simpa [failed] using hr
    simp only [hr.1, hr.2, Bool.not_true, Bool.false_eq_true, if_false]
    refine Has.call cleanup_fine (fun _ _ => ?_) fun _ hr => by cases hr
    exact (fine_watch _ _).after cleanup_fine fun _ => cleans_stop t
  · have hr : r.ok = false ∨ r.text = "" := by simpa [failed] using hr
    refine Spec.ite (fun _ => fails_pure (by simp)) fun h => Spec.ite (fun _ => fails_pure (by simp)) fun h' => ?_
    exfalso
    rcases hr with hr | hr
    · simp [hr] at h
    · exact h' hr

theorem fine_inDir {t : Task} (hx : createArgs cfg t = none → X) : Fine X (fun o => o.isSome = true) (inDir cfg t) := by
  refine (fine_prepare hx).bind cleanup_fine (fun o ho => ?_) fun o ho => ?_
  · cases o with
    | none => cases ho
    | some args => exact fine_contain t args
  · cases o with
    | none => exact fails_pure (by simp)
    | some args => exact absurd rfl ho

theorem fine_doRun {t : Task} (hx : createArgs cfg t = none → X) : Fine X (fun o => o.isSome = true) (doRun cfg t) := by
  refine .call cleanup_fine (fun r hr => ?_) fun r hr => ?_
  · have hr : r.ok = true := by simpa [failed] using hr
    simp only [hr, Bool.not_true, Bool.false_eq_true, if_false]
    exact (fine_inDir hx).after cleanup_fine fun _ n l r n' h => by
      obtain ⟨rfl, rfl⟩ := runs_ask.1 h
      simp [cleanup]
  · have hr : r.ok = false := by simpa [failed] using hr
    simp only [hr, Bool.not_false, if_true]
    exact fails_pure (by simp)

theorem fine_runAll {t : Task} : ∀ {xs : List Task}, (∀ x : Task, x.mounts = t.mounts → x.networks = t.networks → createArgs cfg x = none → X) →
    Fine X (· = true) (runAll cfg t xs)
  | [], _ => .pure (.inl rfl)
  | x :: xs, hx => .fresh fun i => by
    refine (fine_doRun (hx (subTask t x i) rfl rfl)).bind cleanup_fine (fun o ho => ?_) fun o ho => ?_
    · cases o with
      | none => cases ho
      | some r => exact fine_runAll hx
    · cases o with
      | none => exact fails_pure (by simp)
      | some r => exact absurd rfl ho

theorem fine_tasks {t : Task} (hx : ∀ x : Task, x.mounts = t.mounts → x.networks = t.networks → createArgs cfg x = none → X) :
    Fine X (fun o => o.isSome = true) (tasks cfg t) := by
  refine (fine_runAll hx).bind cleanup_fine (fun ok hok => ?_) fun ok hok => ?_
  · subst hok
    simp only [Bool.not_true, Bool.false_eq_true, if_false]
    refine (fine_doRun (hx t rfl rfl)).bind cleanup_fine (fun o ho => ?_) fun o ho => ?_
    · cases o with
      | none => cases ho
      | some r =>
        refine (fine_runAll hx).bind cleanup_fine (fun ok hok => ?_) fun ok hok => ?_
        · subst hok; exact Has.pure (.inl rfl)
        · have : ok = false := by simpa using hok
          subst this
          exact fails_pure (by simp)
    · cases o with
      | none => exact fails_pure (by simp)
      | some r => exact absurd rfl ho
  · have : ok = false := by simpa using hok
    subst this
    exact fails_pure (by simp)

/-- `m'` is `m`, provided: a bound directory as it was asked for, a volume with a new directory -/
def Provides (cfg : Config) (m m' : Mount) : Prop :=
  m'.target = m.target ∧ m'.type = m.type ∧
    ((m.type = "bind" ∧ m'.source = m.source ∧ BindPermitted cfg m.source) ∨ (m.type = "volume" ∧ ∃ v, m'.source = cfg.volume v))

theorem mountOne_provides (m : Mount) (i : Nat) : Spec (fun _ o => ∀ m', o = some m' → Provides cfg m m') (mountOne cfg { m with id := i }) := by
  refine Spec.ite (fun hb => Spec.ite (fun ha => Spec.call fun r => Spec.ite (fun _ => Spec.pure ?_) fun _ => Spec.pure (by simp)) fun _ =>
    Spec.pure (by simp)) fun hb => Spec.ite (fun hv => Spec.fresh fun v => Spec.call fun r => Spec.ite (fun _ => Spec.pure (by simp)) fun _ =>
      Spec.call fun r => Spec.ite (fun _ => Spec.pure (by simp)) fun _ => Spec.pure ?_) fun _ => Spec.pure (by simp)
  · rintro m' ⟨⟩
    exact ⟨rfl, rfl, .inl ⟨hb, rfl, (allowed_iff cfg m.source).1 ha⟩⟩
  · rintro m' ⟨⟩
    exact ⟨rfl, rfl, .inr ⟨hv, v, rfl⟩⟩

theorem fine_mountOne {m : Mount} {i : Nat} (hx : m.type ≠ "volume" → ¬ (m.type = "bind" ∧ BindPermitted cfg m.source) → X) :
    Fine X (fun o => o.isSome = true) (mountOne cfg { m with id := i }) := by
  refine Spec.ite (fun hb => Spec.ite (fun ha => Has.call cleanup_fine (fun r hr => ?_) fun r hr => ?_) fun ha => Has.pure (.inr ?_))
    fun hb => Spec.ite (fun hv => Has.fresh fun v => Has.call cleanup_fine (fun r hr => ?_) fun r hr => ?_) fun hv => Has.pure (.inr ?_)
  · have hr : r.ok = true := by simpa [failed] using hr
    simp only [hr, if_true]; exact Has.pure (.inl rfl)
  · have hr : r.ok = false := by simpa [failed] using hr
    simp only [hr, Bool.false_eq_true, if_false]; exact fails_pure (by simp)
  · refine hx (fun h => ?_) fun h => ha ((allowed_iff cfg m.source).2 h.2)
    have hb : m.type = "bind" := hb
    rw [hb] at h; exact absurd h (by decide)
  · have hr : r.ok = true := by simpa [failed] using hr
    simp only [hr, Bool.not_true, Bool.false_eq_true, if_false]
    refine Has.call cleanup_fine (fun r hr => ?_) fun r hr => ?_
    · have hr : r.ok = true := by simpa [failed] using hr
      simp only [hr, Bool.not_true, Bool.false_eq_true, if_false]; exact Has.pure (.inl rfl)
    · have hr : r.ok = false := by simpa [failed] using hr
      simp only [hr, Bool.not_false, if_true]; exact fails_pure (by simp)
  · have hr : r.ok = false := by simpa [failed] using hr
    simp only [hr, Bool.not_false, if_true]; exact fails_pure (by simp)
  · exact hx hv fun h => hb h.1

theorem cleans_unmount (m : Mount) : Cleans cleanup (unmountOne m) :=
  Spec.ite (fun _ => Spec.call fun _ => Spec.pure (by simp [cleanup])) fun _ => Spec.pure (by simp)

theorem netArgs_none {name : String} : ∀ {ws : List String}, netArgs cfg name ws = none → "host" ∈ ws ∧ cfg.hostNetwork = false
  | [], h => by cases h
  | w :: ws, h => by
    unfold netArgs at h
    split at h
    · rename_i hw
      split at h
      · rw [Option.map_eq_none_iff] at h
        obtain ⟨h1, h2⟩ := netArgs_none h
        exact ⟨by simp [h1], h2⟩
      · rename_i hn; exact ⟨by simp [hw], by simpa using hn⟩
    · rw [Option.map_eq_none_iff] at h
      obtain ⟨h1, h2⟩ := netArgs_none h
      exact ⟨by simp [h1], h2⟩

theorem mountArgs_none : ∀ {ms : List Mount}, mountArgs ms = none → ∃ m ∈ ms, m.type ≠ "volume" ∧ m.type ≠ "bind"
  | [], h => by cases h
  | m :: ms, h => by
    unfold mountArgs at h
    split at h
    · rw [Option.map_eq_none_iff] at h
      obtain ⟨m', h1, h2⟩ := mountArgs_none h
      exact ⟨m', by simp [h1], h2⟩
    · rename_i hm
      exact ⟨m, by simp, fun h => hm (.inl h), fun h => hm (.inr h)⟩

theorem createArgs_none {t : Task} (h : createArgs cfg t = none) :
    ("host" ∈ t.networks ∧ cfg.hostNetwork = false) ∨ ∃ m ∈ t.mounts, m.type ≠ "volume" ∧ m.type ≠ "bind" := by
  unfold createArgs at h
  cases h1 : netArgs cfg t.name t.networks with
  | none => exact .inl (netArgs_none h1)
  | some ns =>
    cases h2 : mountArgs t.mounts with
    | none => exact .inr (mountArgs_none h2)
    | some ms => rw [h1, h2] at h; cases h

theorem fine_withMounts {t : Task} (hh : "host" ∈ t.networks ∧ cfg.hostNetwork = false → X) : ∀ {ms done : List Mount},
    (∀ m ∈ ms, m.type ≠ "volume" → ¬ (m.type = "bind" ∧ BindPermitted cfg m.source) → X) →
    (∀ m ∈ done, m.type = "volume" ∨ m.type = "bind") → Fine X (fun o => o.isSome = true) (withMounts cfg t done ms)
  | [], done, _, hd => fine_tasks (t := { t with mounts := done }) fun x h1 h2 h3 => by
    rcases createArgs_none h3 with h | ⟨m, hm, h4, h5⟩
    · rw [h2] at h; exact hh h
    · rw [h1] at hm
      rcases hd m hm with h | h
      · exact absurd h h4
      · exact absurd h h5
  | m :: ms, done, hm, hd => .fresh fun i => by
    intro n l o n' hr
    replace hr := runs_bind.1 hr
    obtain ⟨o1, l1, l2, k, rfl, h1, h2⟩ := hr
    have hp := mountOne_provides m i n l1 o1 k h1
    refine (fine_mountOne (hm m (by simp)) n l1 o1 k h1).seq cleanup_fine (fun ho => ?_) fun ho => ?_
    · cases o1 with
      | none => cases ho
      | some m' =>
        refine Has.after cleanup_fine (fine_withMounts hh (fun m hm' => hm m (by simp [hm'])) ?_) (fun _ => cleans_unmount m') k l2 o n' h2
        intro m'' hm''
        rcases List.mem_append.1 hm'' with h | h
        · exact hd m'' h
        · rw [List.mem_singleton.1 h]
          obtain ⟨_, ht, h | h⟩ := hp m' rfl
          · exact .inr (ht.trans h.1)
          · exact .inl (ht.trans h.1)
    · cases o1 with
      | none =>
        obtain ⟨rfl, rfl, rfl⟩ := h2
        exact ⟨by simp, by simp⟩
      | some m' => exact absurd rfl ho

end

theorem valid_iff (t : Task) : valid t = false ↔ Invalid t := by
  unfold valid Invalid
  simp
  grind

/-- **C64 (refusal).** A task without id, image or name, or with sidecars, is refused before anything is done. -/
theorem C64_refused {cfg : Config} {t : Task} {n n' : Nat} {l : List Ev} {o : Option String} (h : Runs (run cfg t) n l o n')
    (hi : Invalid t) : l = [] ∧ o = none := by
  unfold run at h
  rw [(valid_iff t).2 hi] at h
  obtain ⟨rfl, rfl, -⟩ := h
  exact ⟨rfl, rfl⟩

/-- **C64 (failures).** After the first call that fails nothing follows but the removal of containers, directories and volumes, and the run
fails. It fails only for this reason, or because the task is invalid or asks for something forbidden. -/
theorem C64_failures {cfg : Config} {t : Task} {n n' : Nat} {l : List Ev} {o : Option String} (h : Runs (run cfg t) n l o n') :
    (∀ l1 e l2, l = l1 ++ e :: l2 → failed e = true → o = none ∧ ∀ e' ∈ l2, cleanup e' = true) ∧
    (o = none → Invalid t ∨ Forbidden cfg t ∨ ∃ e ∈ l, failed e = true) := by
  by_cases hi : Invalid t
  · obtain ⟨rfl, rfl⟩ := C64_refused h hi
    exact ⟨by simp, fun _ => .inl hi⟩
  · have hv : valid t = true := by rw [← Bool.not_eq_false, valid_iff]; exact hi
    unfold run at h
    rw [hv] at h
    have hf := fine_withMounts (cfg := cfg) (X := Forbidden cfg t) (t := t) .inr (ms := t.mounts) (done := [])
      (fun m hm h1 h2 => .inl ⟨m, hm, h1, h2⟩) (by simp) n l o n' h
    refine ⟨fun l1 e l2 hl he => ⟨?_, hf.stop l1 e l2 hl he⟩, fun ho => ?_⟩
    · have := hf.bad ⟨e, by rw [hl]; simp, he⟩
      cases o with
      | none => rfl
      | some r => exact absurd rfl this
    · rcases hf.cause (by simp [ho]) with h | h
      · exact .inr (.inr h)
      · exact .inr (.inl h)

end Tork.Podman
