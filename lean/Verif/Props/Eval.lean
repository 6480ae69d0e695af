import Verif.EvalLemmas
import Verif.FreshLemmas
/-!
# C28 Template evaluation

The expression language is an arbitrary oracle. Specification: `EvalSpec.lean`.
-/

namespace Tork

/-- C28: text without `{{` is unchanged, whatever the expression language does. -/
theorem C28_plain_text (O : Oracle) (c : Ctx) (sd : Nat) (s : String) (h : ¬ ['{', '{'] <:+: s.toList) :
    evaluateTemplate O c sd s = .ok s := by
  unfold evaluateTemplate
  rw [tokens_noTag h]
  have := evalToks_lits (evaluateExpr O c sd) s.toList []
  simp only [List.append_nil, evalToks] at this
  rw [this]
  simp

/-- C28: every tag `{{ e }}` of a template is replaced by the rendering of the value of `e`, the text between
the tags is kept. -/
theorem C28_template (O : Oracle) (c : Ctx) (sd : Nat) (ps : List Piece) (hps : ∀ p ∈ ps, p.ok)
    (val : String → String) (hval : ∀ p ∈ ps, ∀ e ∈ p.exprs, ∃ v, O e c sd = .ok v ∧ v.text = val e) :
    evaluateTemplate O c sd (String.ofList (renderAll ps)) =
      .ok (String.ofList (ps.flatMap (Piece.value val))) := by
  unfold evaluateTemplate
  rw [String.toList_ofList, tokens_render hps]
  have : evalToks (evaluateExpr O c sd) (ps.flatMap Piece.toks) = .ok (ps.flatMap (Piece.value val)) := by
    induction ps with
    | nil => rfl
    | cons p ps ih =>
      have h1 := ih (fun q hq => hps q (by simp [hq])) (fun q hq => hval q (by simp [hq]))
      simp only [List.flatMap_cons]
      cases p with
      | text s => rw [Piece.toks, evalToks_lits, h1]; rfl
      | tag b e a =>
        obtain ⟨v, hv, ht⟩ := hval (.tag b e a) (by simp) (String.ofList e) (by simp [Piece.exprs])
        have hb : '}' ∉ e := (hps (.tag b e a) (by simp)).2.2.1
        have hx : evaluateExpr O c sd (String.ofList e) = .ok v := by
          unfold evaluateExpr
          rw [String.toList_ofList, sanitizeExpr_noBrace hb, hv]
        simp only [Piece.toks, List.cons_append, List.nil_append, evalToks, hx, h1, Piece.value, ht]
  rw [this]

/-- C28: if the value of some expression cannot be computed the whole template fails, with the error of the
first such expression. -/
theorem C28_template_fails (O : Oracle) (c : Ctx) (sd : Nat) (ps qs : List Piece) (b e a : List Char)
    (hps : ∀ p ∈ ps ++ .tag b e a :: qs, p.ok)
    (hval : ∀ p ∈ ps, ∀ e ∈ p.exprs, ∃ v, O e c sd = .ok v) (err : Err)
    (herr : O (String.ofList e) c sd = .error err) :
    evaluateTemplate O c sd (String.ofList (renderAll (ps ++ .tag b e a :: qs))) = .error err := by
  unfold evaluateTemplate
  rw [String.toList_ofList, tokens_render hps]
  have : evalToks (evaluateExpr O c sd) ((ps ++ .tag b e a :: qs).flatMap Piece.toks) = .error err := by
    induction ps with
    | nil =>
      have hb : '}' ∉ e := (hps (.tag b e a) (by simp)).2.2.1
      have hx : evaluateExpr O c sd (String.ofList e) = .error err := by
        unfold evaluateExpr
        rw [String.toList_ofList, sanitizeExpr_noBrace hb, herr]
      simp only [List.nil_append, List.flatMap_cons, Piece.toks, List.cons_append, evalToks, hx]
    | cons p ps ih =>
      have h1 := ih (fun q hq => hps q (by
        rw [List.cons_append]; exact List.mem_cons_of_mem _ hq)) (fun q hq => hval q (by simp [hq]))
      simp only [List.cons_append, List.flatMap_cons]
      cases p with
      | text s => rw [Piece.toks, evalToks_lits, h1]
      | tag b' e' a' =>
        obtain ⟨v, hv⟩ := hval (.tag b' e' a') (by simp) (String.ofList e') (by simp [Piece.exprs])
        have hb : '}' ∉ e' := (hps (.tag b' e' a') (by simp)).2.2.1
        have hx : evaluateExpr O c sd (String.ofList e') = .ok v := by
          unfold evaluateExpr
          rw [String.toList_ofList, sanitizeExpr_noBrace hb, hv]
        simp only [Piece.toks, List.cons_append, List.nil_append, evalToks, hx, h1]
  rw [this]

/-! ## Tasks -/

section
variable {tm : String → Except Err String} {g : String → String}

theorem evalSubJob_ok {s : SubJobTask Task}
    (h : ∀ x ∈ [s.name] ++ s.inputs.map (·.2) ++ s.secrets.map (·.2) ++ s.webhooks.flatMap webhookTexts, tm x = .ok (g x)) :
    evalSubJob tm s = ({ s with
        name := g s.name
        inputs := mapVals g s.inputs
        secrets := mapVals g s.secrets
        webhooks := s.webhooks.map (mapWebhook g) }, none) := by
  unfold evalSubJob
  rw [h s.name (by simp)]
  simp only
  rw [evalMap_ok (g := g) fun kv hk => h kv.2 (by
    simp only [List.mem_append, List.mem_map]; exact .inl (.inl (.inr ⟨kv, hk, rfl⟩)))]
  simp only
  rw [evalMap_ok (g := g) fun kv hk => h kv.2 (by
    simp only [List.mem_append, List.mem_map]; exact .inl (.inr ⟨kv, hk, rfl⟩))]
  simp only
  rw [evalWebhooks_ok (g := g) fun w hw x hx => h x (by
    simp only [List.mem_append, List.mem_flatMap]; exact .inr ⟨w, hw, hx⟩)]

theorem evalTaskStart_ok {t : Task} (hn : tm t.name = .ok (g t.name)) (hv : tm t.var = .ok (g t.var))
    (hi : tm t.image = .ok (g t.image)) (hq : tm t.queue = .ok (g t.queue))
    (he : ∀ kv ∈ t.env, tm kv.2 = .ok (g kv.2)) (hc : tm t.cond = .ok (g t.cond)) :
    evalTaskStart tm t = ({ t with name := g t.name, var := g t.var, image := g t.image, queue := g t.queue
                                   env := mapVals g t.env, cond := g t.cond }, none) := by
  unfold evalTaskStart
  simp only [hn, hv, hi, hq, hc, evalMap_ok he]

mutual
theorem evaluateTask_ok (t : Task) (h : ∀ x ∈ t.texts, tm x = .ok (g x)) :
    evaluateTask tm t = (t.mapTexts g, none) := by
  match t with
  | t@{ pre := pre, post := post, parallel := par, subJob := sj, .. } =>
    rw [Task.texts] at h
    simp only [List.mem_append, List.mem_cons, List.not_mem_nil, or_false] at h
    rw [evaluateTask_eq, evalTaskStart_ok (g := g) (h _ (by simp)) (h _ (by simp)) (h _ (by simp)) (h _ (by simp))
      (fun kv hk => h _ (by simp only [List.mem_map]; exact .inl (.inl (.inl (.inl (.inl (.inl (.inr ⟨kv, hk, rfl⟩)))))) ))
      (h _ (by simp))]
    simp only
    rw [evalTasks_ok pre fun x hx => h x (by simp [hx])]
    simp only
    rw [evalTasks_ok post fun x hx => h x (by simp [hx])]
    simp only
    rw [evalPar_ok par fun x hx => h x (by simp [hx])]
    simp only
    unfold evalTaskEnd
    simp only
    rw [evalList_ok (g := g) fun v hv => h v (by simp [hv])]
    cases sj with
    | none => simp only [Task.mapTexts, Option.map]
    | some s =>
      simp only
      rw [evalSubJob_ok (g := g) fun x hx => h x (.inr (by
        exact hx))]
      simp only [Task.mapTexts, Option.map]
      rfl
theorem evalTasks_ok (ts : List Task) (h : ∀ x ∈ textsL ts, tm x = .ok (g x)) :
    evalTasks tm ts = (mapTextsL g ts, none) := by
  match ts with
  | [] => rw [evalTasks, mapTextsL]
  | t :: ts =>
    rw [textsL] at h
    rw [evalTasks, evaluateTask_ok t fun x hx => h x (by simp [hx])]
    simp only
    rw [evalTasks_ok ts fun x hx => h x (by simp [hx])]
    rw [mapTextsL]
theorem evalPar_ok (p : Option (ParallelTask Task)) (h : ∀ x ∈ textsP p, tm x = .ok (g x)) :
    evalPar tm p = (mapTextsP g p, none) := by
  match p with
  | none => rw [evalPar, mapTextsP]
  | some { tasks := ts, completions := c } =>
    rw [textsP] at h
    rw [evalPar, evalTasks_ok ts h, mapTextsP]
end

theorem evalSubJob_err {s s' : SubJobTask Task} (h : evalSubJob tm s = (s', none)) :
    ∀ x ∈ [s.name] ++ s.inputs.map (·.2) ++ s.secrets.map (·.2) ++ s.webhooks.flatMap webhookTexts,
      ∃ y, tm x = .ok y := by
  unfold evalSubJob at h
  split at h
  · simp at h
  · rename_i name hn
    split at h
    · simp at h
    · rename_i inputs hi
      split at h
      · simp at h
      · rename_i secrets hs
        rcases hw : evalWebhooks tm s.webhooks with ⟨wh, e⟩
        rw [hw] at h
        simp at h
        rw [h.2] at hw
        intro x hx
        simp only [List.mem_append, List.mem_map, List.mem_flatMap, List.mem_cons, List.not_mem_nil, or_false] at hx
        rcases hx with ((rfl | ⟨kv, hk, rfl⟩) | ⟨kv, hk, rfl⟩) | ⟨w, hw', hx⟩
        · exact ⟨_, hn⟩
        · exact evalMap_err hi hk
        · exact evalMap_err hs hk
        · exact evalWebhooks_err hw hw' x hx

theorem evalTaskStart_cmd {t t' : Task} {e : Option Err} (h : evalTaskStart tm t = (t', e)) :
    t'.cmd = t.cmd ∧ t'.subJob = t.subJob := by
  unfold evalTaskStart at h
  repeat' split at h
  all_goals (simp at h; rw [← h.1]; exact ⟨rfl, rfl⟩)

theorem evalTaskStart_err {t t' : Task} (h : evalTaskStart tm t = (t', none)) :
    (∃ y, tm t.name = .ok y) ∧ (∃ y, tm t.var = .ok y) ∧ (∃ y, tm t.image = .ok y) ∧ (∃ y, tm t.queue = .ok y) ∧
    (∀ kv ∈ t.env, ∃ y, tm kv.2 = .ok y) ∧ (∃ y, tm t.cond = .ok y) := by
  unfold evalTaskStart at h
  split at h
  · simp at h
  · rename_i h1
    split at h
    · simp at h
    · rename_i h2
      split at h
      · simp at h
      · rename_i h3
        split at h
        · simp at h
        · rename_i h4
          split at h
          · simp at h
          · rename_i h5
            split at h
            · simp at h
            · rename_i h6
              exact ⟨⟨_, h1⟩, ⟨_, h2⟩, ⟨_, h3⟩, ⟨_, h4⟩, fun kv hk => evalMap_err h5 hk, ⟨_, h6⟩⟩

mutual
theorem evaluateTask_err (t : Task) (h : (evaluateTask tm t).2 = none) : ∀ x ∈ t.texts, ∃ y, tm x = .ok y := by
    rw [evaluateTask_eq] at h
    rcases hs : evalTaskStart tm t with ⟨t1, e1⟩
    rw [hs] at h
    cases e1 with
    | some e => simp at h
    | none =>
      obtain ⟨h1, h2, h3, h4, h5, h6⟩ := evalTaskStart_err hs
      simp only at h h1 h2 h3 h4 h5 h6
      have hf := evalTaskStart_cmd hs
      rcases hpre : evalTasks tm t.pre with ⟨pre', e2⟩
      rw [hpre] at h
      cases e2 with
      | some e => simp at h
      | none =>
        simp only at h
        rcases hpost : evalTasks tm t.post with ⟨post', e3⟩
        rw [hpost] at h
        cases e3 with
        | some e => simp at h
        | none =>
          simp only at h
          rcases hpar : evalPar tm t.parallel with ⟨par', e4⟩
          rw [hpar] at h
          cases e4 with
          | some e => simp at h
          | none =>
            simp only [evalTaskEnd, hf.1, hf.2] at h
            have ipre := evalTasks_err t.pre (by rw [hpre])
            have ipost := evalTasks_err t.post (by rw [hpost])
            have ipar := evalPar_err t.parallel (by rw [hpar])
            rcases hcmd : evalList tm t.cmd with ⟨cmd', e5⟩
            rw [hcmd] at h
            cases e5 with
            | some e => simp at h
            | none =>
              simp only at h
              have icmd := fun v hv => evalList_err hcmd (v := v) hv
              have isub : ∀ x ∈ subTexts t.subJob, ∃ y, tm x = .ok y := by
                cases hsj : t.subJob with
                | none => simp [subTexts]
                | some s =>
                  simp only [hsj] at h
                  rcases hsub : evalSubJob tm s with ⟨s', e6⟩
                  rw [hsub] at h
                  simp at h
                  subst h
                  exact evalSubJob_err hsub
              intro x hx
              rw [Task.texts_eq] at hx
              simp only [List.mem_append, List.mem_cons, List.not_mem_nil, or_false] at hx
              rcases hx with ((((((hx | hx) | hx) | hx) | hx) | hx) | hx) | hx
              · rcases hx with rfl | rfl | rfl | rfl <;> assumption
              · obtain ⟨kv, hk, rfl⟩ := List.mem_map.1 hx; exact h5 kv hk
              · subst hx; exact h6
              · exact ipre x hx
              · exact ipost x hx
              · exact ipar x hx
              · exact icmd x hx
              · exact isub x hx
termination_by sizeOf t
decreasing_by
  · exact t.sizeOf_pre
  · exact t.sizeOf_post
  · exact t.sizeOf_parallel
theorem evalTasks_err (ts : List Task) (h : (evalTasks tm ts).2 = none) : ∀ x ∈ textsL ts, ∃ y, tm x = .ok y := by
  match ts with
  | [] => rw [textsL]; simp
  | t :: ts =>
    rw [evalTasks] at h
    rcases ht : evaluateTask tm t with ⟨t', e⟩
    rw [ht] at h
    cases e with
    | some e => simp at h
    | none =>
      simp only at h
      have i1 := evaluateTask_err t (by rw [ht])
      have i2 := evalTasks_err ts h
      intro x hx
      rw [textsL] at hx
      rcases List.mem_append.1 hx with hx | hx
      · exact i1 x hx
      · exact i2 x hx
termination_by sizeOf ts
theorem evalPar_err (p : Option (ParallelTask Task)) (h : (evalPar tm p).2 = none) :
    ∀ x ∈ textsP p, ∃ y, tm x = .ok y := by
  match p with
  | none => rw [textsP]; simp
  | some { tasks := ts, completions := c } =>
    rw [evalPar] at h
    rw [textsP]
    exact evalTasks_err ts h
termination_by sizeOf p
end

end

/-- C28: evaluating a task succeeds exactly if every one of its texts can be evaluated; then every such text,
at any depth of pre, post and parallel tasks, is replaced by its value and nothing else changes. -/
theorem C28_task (tm : String → Except Err String) (t : Task) :
    ((evaluateTask tm t).2 = none ↔ ∀ x ∈ t.texts, ∃ y, tm x = .ok y) ∧
    ∀ g : String → String, (∀ x ∈ t.texts, tm x = .ok (g x)) → evaluateTask tm t = (t.mapTexts g, none) := by
  refine ⟨⟨evaluateTask_err t, fun h => ?_⟩, fun g h => evaluateTask_ok t h⟩
  have := evaluateTask_ok (tm := tm) (g := fun x => match tm x with | .ok y => y | .error _ => x) t fun x hx => by
    obtain ⟨y, hy⟩ := h x hx
    simp only [hy]
  rw [this]

theorem mapVals_id {g : String → String} {m : StrMap} (h : ∀ kv ∈ m, g kv.2 = kv.2) : mapVals g m = m := by
  unfold mapVals
  conv => rhs; rw [← List.map_id m]
  exact List.map_congr_left fun kv hk => by rw [h kv hk]; rfl

theorem map_id' {g : String → String} {m : List String} (h : ∀ v ∈ m, g v = v) : m.map g = m := by
  conv => rhs; rw [← List.map_id m]
  exact List.map_congr_left fun v hv => by rw [h v hv]; rfl

section
variable {g : String → String}

theorem mapWebhooks_id {ws : List Webhook} (h : ∀ w ∈ ws, ∀ x ∈ webhookTexts w, g x = x) :
    (ws.map fun w => { w with url := g w.url, headers := mapVals g w.headers }) = ws := by
  conv => rhs; rw [← List.map_id ws]
  refine List.map_congr_left fun w hw => ?_
  have h1 := h w hw
  rw [h1 w.url (by simp [webhookTexts]), mapVals_id fun kv hk => h1 kv.2 (by simp [webhookTexts]; exact .inr ⟨kv.1, hk⟩)]
  rfl

mutual
theorem mapTexts_id (t : Task) (h : ∀ x ∈ t.texts, g x = x) : t.mapTexts g = t := by
  rw [Task.texts_eq] at h
  simp only [List.mem_append, List.mem_cons, List.not_mem_nil, or_false] at h
  rw [Task.mapTexts_eq, h t.name (by simp), h t.var (by simp), h t.image (by simp), h t.queue (by simp),
    h t.cond (by simp),
    mapVals_id (m := t.env) fun kv hk => h kv.2 (by
      simp only [List.mem_map]; exact .inl (.inl (.inl (.inl (.inl (.inl (.inr ⟨kv, hk, rfl⟩))))))),
    map_id' (m := t.cmd) fun v hv => h v (by simp [hv]),
    mapTextsL_id t.pre fun x hx => h x (by simp [hx]), mapTextsL_id t.post fun x hx => h x (by simp [hx]),
    mapTextsP_id t.parallel fun x hx => h x (by simp [hx])]
  have hsub : (t.subJob.map fun s => { s with
        name := g s.name
        inputs := mapVals g s.inputs
        secrets := mapVals g s.secrets
        webhooks := s.webhooks.map fun w => { w with url := g w.url, headers := mapVals g w.headers } }) = t.subJob := by
    cases hs : t.subJob with
    | none => rfl
    | some s =>
      have h' : ∀ x ∈ [s.name] ++ s.inputs.map (·.2) ++ s.secrets.map (·.2) ++ s.webhooks.flatMap webhookTexts,
          g x = x := fun x hx => h x (.inr (by rw [hs]; exact hx))
      simp only [List.mem_append, List.mem_map, List.mem_flatMap, List.mem_cons, List.not_mem_nil, or_false] at h'
      simp only [Option.map]
      rw [h' s.name (by simp), mapVals_id (m := s.inputs) fun kv hk => h' kv.2 (.inl (.inl (.inr ⟨kv, hk, rfl⟩))),
        mapVals_id (m := s.secrets) fun kv hk => h' kv.2 (.inl (.inr ⟨kv, hk, rfl⟩)),
        mapWebhooks_id fun w hw x hx => h' x (.inr ⟨w, hw, hx⟩)]
  rw [hsub]
  cases t; rfl
termination_by sizeOf t
decreasing_by
  · exact t.sizeOf_pre
  · exact t.sizeOf_post
  · exact t.sizeOf_parallel
theorem mapTextsL_id (ts : List Task) (h : ∀ x ∈ textsL ts, g x = x) : mapTextsL g ts = ts := by
  match ts with
  | [] => rw [mapTextsL]
  | t :: ts =>
    rw [textsL] at h
    rw [mapTextsL, mapTexts_id t fun x hx => h x (by simp [hx]), mapTextsL_id ts fun x hx => h x (by simp [hx])]
termination_by sizeOf ts
theorem mapTextsP_id (p : Option (ParallelTask Task)) (h : ∀ x ∈ textsP p, g x = x) : mapTextsP g p = p := by
  match p with
  | none => rw [mapTextsP]
  | some { tasks := ts, completions := c } =>
    rw [textsP] at h
    rw [mapTextsP, mapTextsL_id ts h]
termination_by sizeOf p
end

end

/-- C28: a task without templates is left exactly as it is. -/
theorem C28_task_without_templates (O : Oracle) (c : Ctx) (sd : Nat) (t : Task)
    (h : ∀ x ∈ t.texts, ¬ ['{', '{'] <:+: x.toList) : evaluateTask (evaluateTemplate O c sd) t = (t, none) := by
  rw [evaluateTask_ok (g := id) t fun x hx => C28_plain_text O c sd x (h x hx), mapTexts_id (g := id) t fun x _ => rfl]

/-! ## Examples -/

/-- `a{{ x }}b{{y}}` with `x ↦ 1`, `y ↦ 2` -/
def exPieces : List Piece := [.text ['a'], .tag [' '] ['x'] [' '], .text ['b'], .tag [] ['y'] []]
def exOracle : Oracle := fun e _ _ => if e = "x" then .ok { text := "1" } else if e = "y" then .ok { text := "2" } else .error "no"
example : String.ofList (renderAll exPieces) = "a{{ x }}b{{y}}" := by decide +kernel
theorem exPieces_ok : ∀ p ∈ exPieces, p.ok := by
  intro p hp
  simp only [exPieces, List.mem_cons, List.not_mem_nil, or_false] at hp
  rcases hp with rfl | rfl | rfl | rfl
  · simp [Piece.ok]
  · exact ⟨by simp [tagSpace], by simp [tagSpace], by decide, by decide, ⟨'x', [], rfl, by simp [tagSpace]⟩,
      ⟨[], 'x', rfl, by simp [tagSpace]⟩⟩
  · simp [Piece.ok]
  · exact ⟨by simp, by simp, by decide, by decide, ⟨'y', [], rfl, by simp [tagSpace]⟩,
      ⟨[], 'y', rfl, by simp [tagSpace]⟩⟩
example : evaluateTemplate exOracle ⟨{}, none⟩ 0 "a{{ x }}b{{y}}" = .ok "a1b2" := by rfl
example : evaluateTemplate exOracle ⟨{}, none⟩ 0 "a{{ z }}b" = .error "no" := by rfl
/-- a pre task is evaluated, its `run` script and the sidecars are not -/
example : ((evaluateTask (evaluateTemplate exOracle ⟨{}, none⟩ 0)
    { name := "{{x}}", run := "{{x}}", pre := [{ name := "{{y}}", env := [("K", "{{ x }}!")] }]
      sidecars := [{ name := "{{x}}" }] }).1.pre.map fun p => (p.name, p.env)) = [("2", [("K", "1!")])] := by
  decide +kernel

end Tork
