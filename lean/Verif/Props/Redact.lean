import Verif.Redact
/-!
# C25 — redaction of jobs, tasks and logs

Specification: `MapShown` says what a redacted map may show, `TaskShown` what a redacted task may show at
one level, `Corr` pairs a nested task (pre, post, parallel) with its redacted counterpart.
-/

namespace Tork.Redaction

/-- `s` occurs in `v`. -/
def Occurs (s v : String) : Prop := s.toList <:+: v.toList

/-- A secret that cannot be confused with the replacement text: no square bracket, not a part of
`REDACTED` (in particular not empty). -/
def Ordinary (s : String) : Prop :=
  '[' ∉ s.toList ∧ ']' ∉ s.toList ∧ ¬ Occurs s "REDACTED"

/-- What a reader is shown (`v'`) for an entry with key `k` and value `v`. -/
structure ValueShown (hidden : String → Bool) (secrets : StrMap) (mask : String) (k v v' : String) : Prop where
  /-- the value of a secret-looking key is replaced by a fixed text -/
  masked : hidden k = true → v' = mask
  /-- no secret of the job is part of what is shown -/
  scrubbed : ∀ n s, (n, s) ∈ secrets → Ordinary s → ¬ Occurs s v'
  /-- other values are not changed -/
  kept : hidden k = false → (∀ n s, (n, s) ∈ secrets → ¬ Occurs s v) → v' = v

/-- What a reader is shown (`m'`) for a map `m`: the same keys, each with a value shown as above. -/
def MapShown (hidden : String → Bool) (secrets : StrMap) (mask : String) (m m' : StrMap) : Prop :=
  m'.map Prod.fst = m.map Prod.fst ∧
  ∀ (i : Nat) k v v', m[i]? = some (k, v) → m'[i]? = some (k, v') → ValueShown hidden secrets mask k v v'

/-- Every value of a map replaced by the replacement text. -/
def AllHidden (m m' : StrMap) : Prop :=
  m'.map Prod.fst = m.map Prod.fst ∧ ∀ kv ∈ m', kv.2 = "[REDACTED]"

/-- Same webhooks except for the header values. -/
def WebhooksShown (hidden : String → Bool) (secrets : StrMap) (mask : String) (ws ws' : List Webhook) : Prop :=
  ws'.length = ws.length ∧
  ∀ (i : Nat) w w', ws[i]? = some w → ws'[i]? = some w' →
    MapShown hidden secrets mask w.headers w'.headers ∧ w' = { w with headers := w'.headers }

/-- What a reader is shown of a task, not looking into its pre/post/parallel tasks. -/
structure TaskShown (hidden : String → Bool) (secrets : StrMap) (mask : String) (t t' : Task) : Prop where
  env : MapShown hidden secrets mask t.env t'.env
  mounts : t'.mounts.length = t.mounts.length ∧
    ∀ (i : Nat) m m', t.mounts[i]? = some m → t'.mounts[i]? = some m' →
      MapShown hidden secrets mask m.opts m'.opts ∧ m' = { m with opts := m'.opts }
  registry : t'.registry = t.registry.map fun r => { r with password := "[REDACTED]" }
  subJobNone : t.subJob = none ↔ t'.subJob = none
  subJob : ∀ s s', t.subJob = some s → t'.subJob = some s' →
    AllHidden s.secrets s'.secrets ∧ WebhooksShown hidden secrets mask s.webhooks s'.webhooks ∧
    s' = { s with secrets := s'.secrets, webhooks := s'.webhooks }
  /-- the nested tasks are the same ones, in the same order -/
  nested : t'.pre.length = t.pre.length ∧ t'.post.length = t.post.length ∧
    (t.parallel = none ↔ t'.parallel = none) ∧
    ∀ p p', t.parallel = some p → t'.parallel = some p' →
      p'.tasks.length = p.tasks.length ∧ p' = { p with tasks := p'.tasks }
  /-- nothing else is changed -/
  rest : t' = { t with env := t'.env, mounts := t'.mounts, registry := t'.registry, subJob := t'.subJob,
                       pre := t'.pre, post := t'.post, parallel := t'.parallel }

/-- `Corr t t' u u'`: `u` is `t` or a task nested in `t` through pre, post and parallel, and `u'` is the task
at the same place of `t'`. -/
inductive Corr : Task → Task → Task → Task → Prop
  | here (t t' : Task) : Corr t t' t t'
  | pre {t t' u u' v v' : Task} {i : Nat} : t.pre[i]? = some u → t'.pre[i]? = some u' → Corr u u' v v' → Corr t t' v v'
  | post {t t' u u' v v' : Task} {i : Nat} : t.post[i]? = some u → t'.post[i]? = some u' → Corr u u' v v' → Corr t t' v v'
  | par {t t' u u' v v' : Task} {p p' : ParallelTask Task} {i : Nat} : t.parallel = some p → t'.parallel = some p' →
      p.tasks[i]? = some u → p'.tasks[i]? = some u' → Corr u u' v v' → Corr t t' v v'

/-! ### ReplaceAll -/

theorem infix_cons_iff {α} {u : List α} {a : α} {l : List α} : u <:+: a :: l ↔ u <+: a :: l ∨ u <:+: l := by
  exact List.infix_cons_iff

theorem prefix_of_not_mem {c : Char} {B : List Char} : ∀ {A u : List Char}, c ∉ u → u <+: A ++ c :: B → u <+: A
  | [], [], _, _ => List.prefix_refl _
  | [], d :: u, hc, h => by
    rw [List.nil_append] at h
    have := (List.cons_prefix_cons.1 h).1
    subst this
    exact absurd (List.mem_cons_self ..) hc
  | a :: A, [], _, _ => List.nil_prefix
  | a :: A, d :: u, hc, h => by
    rw [List.cons_append] at h
    obtain ⟨rfl, h2⟩ := List.cons_prefix_cons.1 h
    exact List.cons_prefix_cons.2 ⟨rfl, prefix_of_not_mem (fun hm => hc (List.mem_cons_of_mem _ hm)) h2⟩

theorem infix_of_not_mem {c : Char} {B u : List Char} (hc : c ∉ u) :
    ∀ {A : List Char}, u <:+: A ++ c :: B → u <:+: A ∨ u <:+: B
  | [], h => by
    rw [List.nil_append] at h
    rcases infix_cons_iff.1 h with h | h
    · exact .inl (prefix_of_not_mem (A := []) hc h).isInfix
    · exact .inr h
  | a :: A, h => by
    rw [List.cons_append] at h
    rcases infix_cons_iff.1 h with h | h
    · rw [← List.cons_append] at h
      exact .inl (prefix_of_not_mem hc h).isInfix
    · rcases infix_of_not_mem hc h with h | h
      · exact .inl (infix_cons_iff.2 (.inr h))
      · exact .inr h

theorem marker_list : marker.toList = '[' :: ("REDACTED".toList ++ [']']) := by decide +kernel

theorem infix_marker_append {s : String} (hs : Ordinary s) {X : List Char}
    (h : s.toList <:+: marker.toList ++ X) : s.toList <:+: X := by
  rw [marker_list, List.cons_append] at h
  rcases infix_of_not_mem (A := []) hs.1 (by rw [List.nil_append]; exact h) with h | h
  · exact (hs.2.2 (List.IsInfix.trans h (List.nil_infix))).elim
  · rw [List.append_assoc, List.singleton_append] at h
    rcases infix_of_not_mem hs.2.1 h with h | h
    · exact (hs.2.2 h).elim
    · exact h

theorem prefix_repl {old : List Char} : ∀ (t : List Char) {v : List Char}, '[' ∉ v →
    v <+: replFrom old marker.toList 0 t → v <+: t
  | [], v, _, h => by rw [replFrom] at h; exact h
  | c :: cs, v, hv, h => by
    rw [replFrom] at h
    split at h
    · rw [marker_list, List.cons_append] at h
      have := prefix_of_not_mem (A := []) hv (by simpa using h)
      exact List.IsPrefix.trans this List.nil_prefix
    · cases v with
      | nil => exact List.nil_prefix
      | cons d v =>
        obtain ⟨rfl, h2⟩ := List.cons_prefix_cons.1 h
        exact List.cons_prefix_cons.2 ⟨rfl, prefix_repl cs (fun hm => hv (List.mem_cons_of_mem _ hm)) h2⟩

/-- Replacing some text by the marker creates no occurrence of an ordinary secret. -/
theorem infix_repl {s : String} (hs : Ordinary s) (old : List Char) : ∀ (t : List Char) (k : Nat),
    s.toList <:+: replFrom old marker.toList k t → s.toList <:+: t
  | [], k, h => by cases k <;> · rw [replFrom] at h; exact h
  | c :: cs, k + 1, h => by
    rw [replFrom] at h
    exact infix_cons_iff.2 (.inr (infix_repl hs old cs k h))
  | c :: cs, 0, h => by
    by_cases hp : old.isPrefixOf (c :: cs) = true
    · rw [replFrom, if_pos hp] at h
      exact infix_cons_iff.2 (.inr (infix_repl hs old cs _ (infix_marker_append hs h)))
    · have h0 := h
      rw [replFrom, if_neg hp] at h
      rcases infix_cons_iff.1 h with h | h
      · refine (prefix_repl (old := old) (c :: cs) hs.1 ?_).isInfix
        rw [replFrom, if_neg hp]; exact h
      · exact infix_cons_iff.2 (.inr (infix_repl hs old cs 0 h))

/-- Replacing an ordinary secret leaves no occurrence of it. -/
theorem repl_clean {s : String} (hs : Ordinary s) : ∀ (t : List Char) (k : Nat),
    ¬ s.toList <:+: replFrom s.toList marker.toList k t
  | [], k => by
    intro h
    refine hs.2.2 ?_
    have : s.toList <:+: [] := by cases k <;> · rw [replFrom] at h; exact h
    exact List.IsInfix.trans this List.nil_infix
  | c :: cs, k + 1 => by rw [replFrom]; exact repl_clean hs cs k
  | c :: cs, 0 => by
    intro h
    by_cases hp : s.toList.isPrefixOf (c :: cs) = true
    · rw [replFrom, if_pos hp] at h
      exact repl_clean hs cs _ (infix_marker_append hs h)
    · have h0 := h
      rw [replFrom, if_neg hp] at h
      rcases infix_cons_iff.1 h with h | h
      · refine hp (List.isPrefixOf_iff_prefix.2 (prefix_repl (old := s.toList) (c :: cs) hs.1 ?_))
        rw [replFrom, if_neg hp]; exact h
      · exact repl_clean hs cs 0 h

theorem infix_replEmpty {s : String} (hs : Ordinary s) : ∀ (t : List Char),
    s.toList <:+: replEmpty marker.toList t → s.toList <:+: t
  | [], h => by
    rw [replEmpty] at h
    exact infix_marker_append hs (X := []) (by simpa using h)
  | c :: cs, h => by
    rw [replEmpty] at h
    have h := infix_marker_append hs h
    rcases infix_cons_iff.1 h with h | h
    · have hm : replEmpty marker.toList cs = '[' :: (replEmpty marker.toList cs).tail := by
        cases cs <;> simp [replEmpty, marker_list]
      rw [hm] at h
      have := prefix_of_not_mem (A := [c]) hs.1 h
      exact List.IsInfix.trans this.isInfix (List.IsPrefix.isInfix ⟨cs, rfl⟩)
    · exact infix_cons_iff.2 (.inr (infix_replEmpty hs cs h))

theorem occurs_replaceAll {s : String} (hs : Ordinary s) {v old : String}
    (h : Occurs s (replaceAll v old marker)) : Occurs s v := by
  unfold Occurs replaceAll at h
  rw [String.toList_ofList] at h
  split at h
  · exact infix_replEmpty hs _ h
  · exact infix_repl hs _ _ _ h

theorem ordinary_ne {s : String} (hs : Ordinary s) : s.toList ≠ [] := by
  intro h; refine hs.2.2 ?_; unfold Occurs; rw [h]; exact List.nil_infix

theorem not_occurs_replaceAll {s : String} (hs : Ordinary s) {v : String} : ¬ Occurs s (replaceAll v s marker) := by
  unfold Occurs replaceAll
  rw [String.toList_ofList, if_neg (ordinary_ne hs)]
  exact repl_clean hs _ _

theorem occurs_scrub {s : String} (hs : Ordinary s) (secrets : StrMap) : ∀ {v}, Occurs s (scrub secrets v) → Occurs s v := by
  induction secrets with
  | nil => intro v h; exact h
  | cons kv secrets ih =>
    intro v h
    unfold scrub at h
    rw [List.foldl_cons] at h
    exact occurs_replaceAll hs (ih h)

theorem not_occurs_scrub {n s : String} (hs : Ordinary s) (secrets : StrMap) (hm : (n, s) ∈ secrets) :
    ∀ v, ¬ Occurs s (scrub secrets v) := by
  induction secrets with
  | nil => cases hm
  | cons kv secrets ih =>
    intro v h
    have h' : Occurs s (scrub secrets (replaceAll v kv.2 marker)) := h
    rcases List.mem_cons.1 hm with rfl | hm
    · exact not_occurs_replaceAll hs (occurs_scrub hs secrets h')
    · exact ih hm _ h'

theorem repl_id {old new : List Char} : ∀ {t : List Char}, ¬ old <:+: t → replFrom old new 0 t = t
  | [], _ => by rw [replFrom]
  | c :: cs, h => by
    have hp : ¬ old.isPrefixOf (c :: cs) = true := fun hp => h (List.isPrefixOf_iff_prefix.1 hp).isInfix
    rw [replFrom, if_neg hp, repl_id (fun h' => h (infix_cons_iff.2 (.inr h')))]

theorem replaceAll_id {v s m : String} (h : ¬ Occurs s v) : replaceAll v s m = v := by
  unfold replaceAll
  have hne : s.toList ≠ [] := by
    intro h0; apply h; unfold Occurs; rw [h0]; exact List.nil_infix
  rw [if_neg hne, repl_id h, String.ofList_toList]

theorem scrub_id : ∀ {secrets : StrMap} {v : String}, (∀ n s, (n, s) ∈ secrets → ¬ Occurs s v) → scrub secrets v = v
  | [], _, _ => rfl
  | (n, s) :: secrets, v, h => by
    show scrub secrets (replaceAll v s marker) = v
    rw [replaceAll_id (h n s (List.mem_cons_self ..))]
    exact scrub_id fun n s hm => h n s (List.mem_cons_of_mem _ hm)

/-! ### Maps, tasks, jobs -/

theorem mapShown_redactVars (ms : List Matcher) (m secrets : StrMap) :
    MapShown (fun k => ms.any (· k)) secrets (scrub secrets marker) m (redactVars ms m secrets) := by
  refine ⟨by simp [redactVars, Function.comp_def], ?_⟩
  intro i k v v' h h'
  unfold redactVars at h'
  rw [List.getElem?_map, h] at h'
  simp only [Option.map_some, Option.some.injEq, Prod.mk.injEq, true_and] at h'
  subst h'
  refine ⟨?_, ?_, ?_⟩
  · intro hk; rw [if_pos hk]
  · intro n s hm hs; exact not_occurs_scrub hs secrets hm _
  · intro hk hv
    rw [if_neg (by rw [hk]; exact Bool.false_ne_true)]
    exact scrub_id hv

theorem allHidden_mask (m : StrMap) : AllHidden m (m.map fun (k, _) => (k, marker)) := by
  refine ⟨by simp [Function.comp_def], ?_⟩
  intro kv h
  obtain ⟨x, _, rfl⟩ := List.mem_map.1 h
  rfl

theorem webhooksShown_redact (ms : List Matcher) (secrets : StrMap) (ws : List Webhook) :
    WebhooksShown (fun k => ms.any (· k)) secrets (scrub secrets marker) ws (ws.map (redactWebhook ms secrets)) := by
  refine ⟨by simp, ?_⟩
  intro i w w' h h'
  rw [List.getElem?_map, h] at h'
  simp only [Option.map_some, Option.some.injEq] at h'
  subst h'
  exact ⟨mapShown_redactVars .., rfl⟩

theorem redactTasks_map (ms : List Matcher) (secrets : StrMap) :
    ∀ ts, redactTasks ms secrets ts = ts.map (redactTask ms secrets)
  | [] => by rw [redactTasks]; rfl
  | t :: ts => by rw [redactTasks, redactTasks_map ms secrets ts]; rfl

theorem redactPar_map (ms : List Matcher) (secrets : StrMap) (p : Option (ParallelTask Task)) :
    redactPar ms secrets p = p.map fun p => { p with tasks := p.tasks.map (redactTask ms secrets) } := by
  cases p with
  | none => rw [redactPar]; rfl
  | some p => cases p; rw [redactPar, redactTasks_map]; rfl

theorem redactTask_eq (ms : List Matcher) (secrets : StrMap) (t : Task) : redactTask ms secrets t =
    { t with
      env := redactVars ms t.env secrets
      mounts := t.mounts.map (redactMount ms secrets)
      pre := t.pre.map (redactTask ms secrets)
      post := t.post.map (redactTask ms secrets)
      parallel := t.parallel.map fun p => { p with tasks := p.tasks.map (redactTask ms secrets) }
      registry := t.registry.map redactRegistry
      subJob := t.subJob.map (redactSubJob ms secrets) } := by
  cases t
  rw [redactTask]
  simp only [redactTasks_map, redactPar_map]

theorem taskShown_redact (ms : List Matcher) (secrets : StrMap) (t : Task) :
    TaskShown (fun k => ms.any (· k)) secrets (scrub secrets marker) t (redactTask ms secrets t) := by
  rw [redactTask_eq]
  constructor
  · exact mapShown_redactVars ..
  · refine ⟨by simp, ?_⟩
    intro i m m' h h'
    simp only [List.getElem?_map, h, Option.map_some, Option.some.injEq] at h'
    subst h'
    exact ⟨mapShown_redactVars .., rfl⟩
  · rfl
  · simp
  · intro s s' h h'
    simp only [h, Option.map_some, Option.some.injEq] at h'
    subst h'
    exact ⟨allHidden_mask _, webhooksShown_redact .., rfl⟩
  · refine ⟨by simp, by simp, by simp, ?_⟩
    intro p p' h h'
    simp only [h, Option.map_some, Option.some.injEq] at h'
    subst h'
    exact ⟨by simp, rfl⟩
  · rfl

theorem corr_redact {ms : List Matcher} {secrets : StrMap} {t t' u u' : Task} (h : Corr t t' u u') :
    t' = redactTask ms secrets t → u' = redactTask ms secrets u := by
  induction h with
  | here => exact fun h => h
  | pre h1 h2 _ ih =>
    rintro rfl
    rw [redactTask_eq] at h2
    simp only [List.getElem?_map, h1, Option.map_some, Option.some.injEq] at h2
    exact ih h2.symm
  | post h1 h2 _ ih =>
    rintro rfl
    rw [redactTask_eq] at h2
    simp only [List.getElem?_map, h1, Option.map_some, Option.some.injEq] at h2
    exact ih h2.symm
  | par h1 h2 h3 h4 _ ih =>
    rintro rfl
    rw [redactTask_eq] at h2
    simp only [h1, Option.map_some, Option.some.injEq] at h2
    subst h2
    simp only [List.getElem?_map, h3, Option.map_some, Option.some.injEq] at h4
    exact ih h4.symm

theorem mask_plain {secrets : StrMap} (h : ∀ n s, (n, s) ∈ secrets → ¬ Occurs s "[REDACTED]") :
    scrub secrets marker = "[REDACTED]" := scrub_id h

/-- **C25 (task).** For every set of key matchers and every secret map (in every iteration order) there is one
fixed mask text — `[REDACTED]` unless a secret occurs in that very text — such that in every redacted task, and in
every task nested in it through pre, post and parallel: values of matching keys are the mask, no ordinary secret
occurs in a shown env, mount option or webhook header value, registry passwords and sub-job secrets are hidden, and
nothing else is changed. -/
theorem C25_task (ms : List Matcher) (secrets : StrMap) :
    ∃ mask : String, ((∀ n s, (n, s) ∈ secrets → ¬ Occurs s "[REDACTED]") → mask = "[REDACTED]") ∧
      ∀ t u u' : Task, Corr t (redactTask ms secrets t) u u' →
        TaskShown (fun k => ms.any (· k)) secrets mask u u' := by
  refine ⟨scrub secrets marker, mask_plain, ?_⟩
  intro t u u' h
  rw [corr_redact h rfl]
  exact taskShown_redact ..

/-- **C25 (job).** The same for a job: inputs, webhook headers, context and all tasks; all secrets are hidden and
nothing else is changed. -/
theorem C25_job (ms : List Matcher) (j : Job) :
    ∃ mask : String, ((∀ n s, (n, s) ∈ j.secrets → ¬ Occurs s "[REDACTED]") → mask = "[REDACTED]") ∧
      let j' := redactJob ms j
      let Shown := MapShown (fun k => ms.any (· k)) j.secrets mask
      Shown j.inputs j'.inputs ∧ Shown j.context.inputs j'.context.inputs ∧
      Shown j.context.secrets j'.context.secrets ∧ Shown j.context.tasks j'.context.tasks ∧
      WebhooksShown (fun k => ms.any (· k)) j.secrets mask j.webhooks j'.webhooks ∧
      AllHidden j.secrets j'.secrets ∧
      (j'.tasks.length = j.tasks.length ∧ ∀ (i : Nat) t t' u u', j.tasks[i]? = some t → j'.tasks[i]? = some t' →
        Corr t t' u u' → TaskShown (fun k => ms.any (· k)) j.secrets mask u u') ∧
      (j'.execution.length = j.execution.length ∧
        ∀ (i : Nat) t t' u u', j.execution[i]? = some t → j'.execution[i]? = some t' →
          Corr t t' u u' → TaskShown (fun k => ms.any (· k)) j.secrets mask u u') ∧
      j' = { j with inputs := j'.inputs, webhooks := j'.webhooks, tasks := j'.tasks, execution := j'.execution,
                    secrets := j'.secrets,
                    context := { j.context with inputs := j'.context.inputs, secrets := j'.context.secrets,
                                                tasks := j'.context.tasks } } := by
  refine ⟨scrub j.secrets marker, mask_plain, ?_⟩
  have hl : ∀ ts : List Task, (redactTasks ms j.secrets ts).length = ts.length ∧
      ∀ (i : Nat) t t' u u', ts[i]? = some t → (redactTasks ms j.secrets ts)[i]? = some t' →
        Corr t t' u u' → TaskShown (fun k => ms.any (· k)) j.secrets (scrub j.secrets marker) u u' := by
    intro ts
    rw [redactTasks_map]
    refine ⟨by simp, ?_⟩
    intro i t t' u u' h h' hc
    simp only [List.getElem?_map, h, Option.map_some, Option.some.injEq] at h'
    rw [corr_redact hc h'.symm]
    exact taskShown_redact ..
  exact ⟨mapShown_redactVars .., mapShown_redactVars .., mapShown_redactVars .., mapShown_redactVars ..,
    webhooksShown_redact .., allHidden_mask _, hl _, hl _, rfl⟩

/-- **C25 (read path).** A task shown through the task endpoint is redacted with the secrets of its job, whenever
that job can be read. -/
theorem C25_read_task (ms : List Matcher) (ds : DS) (t : Task) (j : Job) (hj : ds.job? t.jobID = some j) :
    redactTaskOf ms ds t = redactTask ms j.secrets t := by
  unfold redactTaskOf getJob
  rw [hj]

/-- **C25 (logs).** If a log page is shown at all, it is the same parts in the same order, nothing but the contents
changed, and no ordinary secret of the job occurs within a part; a part in which no secret occurs is unchanged. -/
theorem C25_logs (ds : DS) (l l' : List TaskLogPart) (h : redactLog ds l = .ok l') :
    l'.length = l.length ∧
    ∀ p0 t j, l[0]? = some p0 → ds.task? p0.taskID = some t → ds.job? t.jobID = some j →
      ∀ (i : Nat) p p', l[i]? = some p → l'[i]? = some p' →
        p' = { p with contents := p'.contents } ∧
        (∀ n s, (n, s) ∈ j.secrets → Ordinary s → ¬ Occurs s p'.contents) ∧
        ((∀ n s, (n, s) ∈ j.secrets → ¬ Occurs s p.contents) → p' = p) := by
  cases l with
  | nil =>
    simp only [redactLog, Except.ok.injEq] at h
    subst h
    exact ⟨rfl, fun p0 t j h0 => by simp at h0⟩
  | cons q l =>
    unfold redactLog getTask getJob at h
    simp only at h
    cases hq : ds.task? q.taskID with
    | none => rw [hq] at h; cases h
    | some t =>
      rw [hq] at h
      simp only at h
      cases hj : ds.job? t.jobID with
      | none => rw [hj] at h; cases h
      | some j =>
        rw [hj] at h
        simp only [Except.ok.injEq] at h
        subst h
        refine ⟨by simp, ?_⟩
        intro p0 t' j' h0 ht' hj' i p p' hp hp'
        simp only [List.getElem?_cons_zero, Option.some.injEq] at h0
        subst h0
        rw [hq] at ht'; cases ht'
        rw [hj] at hj'; cases hj'
        rw [List.getElem?_map, hp] at hp'
        simp only [Option.map_some, Option.some.injEq] at hp'
        subst hp'
        refine ⟨rfl, fun n s hm hs => not_occurs_scrub hs _ hm _, ?_⟩
        intro hn
        unfold redactLogPart
        rw [scrub_id hn]

/-! ### Default key patterns -/

theorem containsL_iff (sub : List Char) : ∀ l, containsL sub l = true ↔ sub <:+: l
  | [] => by
    rw [containsL, List.isPrefixOf_iff_prefix, List.prefix_nil, List.infix_nil]
  | c :: cs => by
    rw [containsL, Bool.or_eq_true, containsL_iff sub cs, List.isPrefixOf_iff_prefix, infix_cons_iff]

/-- **C25 (keys).** A redacter made without matchers hides exactly the keys that contain `SECRET`, `PASSWORD` or
`ACCESS_KEY`, whatever the case of their letters. -/
theorem C25_default_keys (k : String) :
    (newRedacter []).any (· k) = true ↔
      ∃ w ∈ ["SECRET", "PASSWORD", "ACCESS_KEY"], Occurs w (String.ofList (k.toList.map Char.toUpper)) := by
  have hu : ∀ w ∈ ["SECRET", "PASSWORD", "ACCESS_KEY"], w.toList.map Char.toUpper = w.toList := by decide +kernel
  simp only [newRedacter, List.length_nil, if_true, defaultMatchers, List.any_cons, List.any_nil, Bool.or_false,
    Bool.or_eq_true, contains, containsL_iff, Occurs, String.toList_ofList, List.mem_cons, List.not_mem_nil, or_false,
    exists_eq_or_imp, exists_eq_left]
  rw [hu "SECRET" (by simp), hu "PASSWORD" (by simp), hu "ACCESS_KEY" (by simp)]

/-! ### Limits of redaction, proved of the model -/

/-- The task nested in an `each` task and sidecars are shown as they are: their env is not redacted. -/
theorem C25_each_and_sidecars_not_redacted (ms : List Matcher) (secrets : StrMap) (t : Task) :
    (redactTask ms secrets t).each = t.each ∧ (redactTask ms secrets t).sidecars = t.sidecars ∧
    (redactTask ms secrets t).cmd = t.cmd ∧ (redactTask ms secrets t).run = t.run ∧
    (redactTask ms secrets t).result = t.result ∧ (redactTask ms secrets t).error = t.error := by
  rw [redactTask_eq]; exact ⟨rfl, rfl, rfl, rfl, rfl, rfl⟩

/-- A secret written across two log parts is shown. -/
theorem C25_split_secret_leaks : ∃ (ds : DS) (l l' : List TaskLogPart), redactLog ds l = .ok l' ∧
    ∃ j ∈ ds.jobs, ("pw", "hunter2") ∈ j.secrets ∧ Ordinary "hunter2" ∧
      Occurs "hunter2" (String.join (l'.map (·.contents))) := by
  refine ⟨{ jobs := [{ id := 1, secrets := [("pw", "hunter2")] }], tasks := [{ id := 2, jobID := 1 }] },
    [{ number := 1, taskID := 2, contents := "pw: hun" }, { number := 2, taskID := 2, contents := "ter2" }],
    [{ number := 1, taskID := 2, contents := "pw: hun" }, { number := 2, taskID := 2, contents := "ter2" }],
    ?_, ?_⟩
  · rfl
  · refine ⟨_, List.mem_singleton_self _, List.mem_singleton_self _, ?_, ?_⟩
    · unfold Ordinary Occurs; decide +kernel
    · unfold Occurs; decide +kernel

/-! ### Non-vacuity -/

/-- A nested task with a secret-looking key and a secret in a value. -/
def redactEx : Task :=
  { id := 1, env := [("DB_Password", "x"), ("URL", "http://hunter2@h")],
    registry := some { username := "u", password := "p" },
    parallel := some { tasks := [{ id := 2, env := [("A", "hunter2hunter2"), ("B", "ok")] }] } }

example : (redactTask defaultMatchers [("pw", "hunter2")] redactEx).env =
    [("DB_Password", "[REDACTED]"), ("URL", "http://[REDACTED]@h")] := by decide +kernel
example : ((redactTask defaultMatchers [("pw", "hunter2")] redactEx).parallel.map fun p => p.tasks.map (·.env)) =
    some [[("A", "[REDACTED][REDACTED]"), ("B", "ok")]] := by decide +kernel
example : Ordinary "hunter2" := by unfold Ordinary Occurs; decide +kernel
/-- The hypothesis `Ordinary` is needed: a secret that is part of the marker occurs in the result. -/
example : Occurs "A" (scrub [("k", "A")] "xAy") := by unfold Occurs; decide +kernel
example : Corr redactEx (redactTask defaultMatchers [] redactEx)
    { id := 2, env := [("A", "hunter2hunter2"), ("B", "ok")] }
    (redactTask defaultMatchers [] { id := 2, env := [("A", "hunter2hunter2"), ("B", "ok")] }) := by
  refine .par (i := 0) rfl (by rw [redactTask_eq]; rfl) rfl rfl (.here _ _)

end Tork.Redaction
