import Verif.Props.Shell
/-!
# C63 — the shell runtime: environment and identity of the process
-/

namespace Tork.Shell
open Calls

/-! ## Specification -/

/-- The variable `n` has the value `v` in the shell that runs the script of task `x` in directory `d`: five variables are set by the runtime,
the others are those of the task, and no other variable of the worker is visible. -/
def Sees (cfg : Config) (d : Nat) (x : Task) (n v : String) : Prop :=
  if n = "WORKDIR" then v = cfg.dir d
  else if n = "PATH" then v = cfg.hostPath
  else if n = "HOME" then v = cfg.hostHome
  else if n = "TORK_OUTPUT" then v = cfg.dir d ++ "/stdout"
  else if n = "TORK_PROGRESS" then v = cfg.dir d ++ "/progress"
  else (n, v) ∈ x.env

/-- the variables of the task have distinct names (they are the keys of a map) without `=` -/
def GoodNames (x : Task) : Prop := (x.env.map (·.1)).Nodup ∧ ∀ kv ∈ x.env, '=' ∉ kv.1.toList

/-! ## The last entry with a name -/

/-- the value of the last entry with name `n` -/
def lk (n : List Char) : List (List Char) → Option (List Char)
  | [] => none
  | e :: es => (lk n es).or (if (splitEntry e).1 = n then some (splitEntry e).2 else none)

theorem split_name (e : List Char) : '=' ∉ (splitEntry e).1 := by
  induction e with
  | nil => simp [splitEntry]
  | cons c e ih =>
    by_cases hc : c = '='
    · simp [splitEntry, hc]
    · have hc' : ¬ '=' = c := fun h => hc h.symm
      simp only [splitEntry] at ih
      simp [splitEntry, hc, hc', ih]

theorem split_entry {n v : List Char} (h : '=' ∉ n) : splitEntry (entry n v) = (n, v) := by
  induction n with
  | nil => simp [splitEntry, entry]
  | cons c n ih =>
    have hc : c ≠ '=' := fun h' => h (h' ▸ List.mem_cons_self)
    have h' : '=' ∉ n := fun h' => h (List.mem_cons_of_mem _ h')
    have := ih h'
    simp only [splitEntry, entry, Prod.mk.injEq] at this
    simp [splitEntry, entry, hc, this.1, this.2]

/-- the entry has a name and a value -/
def WF (e : List Char) : Prop := ∃ n v, '=' ∉ n ∧ e = entry n v

theorem WF.eq {e : List Char} (h : WF e) : e = entry (splitEntry e).1 (splitEntry e).2 := by
  obtain ⟨n, v, hn, rfl⟩ := h
  rw [split_entry hn]

theorem lk_none {n : List Char} {l : List (List Char)} : lk n l = none ↔ ∀ e ∈ l, (splitEntry e).1 ≠ n := by
  induction l with
  | nil => simp [lk]
  | cons e es ih => simp [lk, ih, and_comm]

theorem lk_some {n v : List Char} {l : List (List Char)} (h : lk n l = some v) : ∃ e ∈ l, splitEntry e = (n, v) := by
  induction l with
  | nil => simp [lk] at h
  | cons e es ih =>
    simp only [lk] at h
    cases h' : lk n es with
    | none =>
      rw [h'] at h
      simp at h
      exact ⟨e, by simp, by rw [← h.1, ← h.2]⟩
    | some w =>
      rw [h'] at h
      simp at h
      subst h
      obtain ⟨e', he, hs⟩ := ih h'
      exact ⟨e', by simp [he], hs⟩

theorem lk_append {n : List Char} {l l' : List (List Char)} : lk n (l ++ l') = (lk n l').or (lk n l) := by
  induction l with
  | nil => simp [lk]
  | cons e es ih => simp [lk, ih, Option.or_assoc]

theorem lk_dedup {n : List Char} {l : List (List Char)} : lk n (dedup l) = lk n l := by
  induction l with
  | nil => rfl
  | cons e es ih =>
    unfold dedup
    split
    · rename_i h
      rw [ih, lk]
      split
      · rename_i hn
        cases h' : lk n es with
        | none =>
          rw [lk_none] at h'
          simp only [List.any_eq_true, beq_iff_eq] at h
          obtain ⟨e', he', hn'⟩ := h
          exact absurd (hn'.trans hn) (h' e' he')
        | some w => rfl
      · simp
    · rw [lk, lk, ih]

theorem mem_dedup {e : List Char} {l : List (List Char)} (h : e ∈ dedup l) :
    e ∈ l ∧ lk (splitEntry e).1 l = some (splitEntry e).2 := by
  induction l with
  | nil => cases h
  | cons a es ih =>
    unfold dedup at h
    split at h
    · obtain ⟨h1, h2⟩ := ih h
      exact ⟨by simp [h1], by rw [lk, h2]; rfl⟩
    · rename_i hn
      rcases List.mem_cons.1 h with rfl | h
      · refine ⟨by simp, ?_⟩
        have : lk (splitEntry e).1 es = none := by
          rw [lk_none]
          intro e' he' heq
          exact hn (List.any_eq_true.2 ⟨e', he', by simpa using heq⟩)
        rw [lk, this]; simp
      · obtain ⟨h1, h2⟩ := ih h
        exact ⟨by simp [h1], by rw [lk, h2]; rfl⟩

theorem mem_dedup_iff {n v : List Char} {l : List (List Char)} (hn : '=' ∉ n) (hl : ∀ e ∈ l, WF e) :
    entry n v ∈ dedup l ↔ lk n l = some v := by
  constructor
  · intro h
    have := (mem_dedup h).2
    rwa [split_entry hn] at this
  · intro h
    rw [← lk_dedup] at h
    obtain ⟨e, he, hs⟩ := lk_some h
    have := (hl e (mem_dedup he).1).eq
    rw [hs] at this
    exact this ▸ he

theorem getenv_dedup {n : List Char} {l : List (List Char)} : getenv (dedup l) n = (lk n l).getD [] := by
  unfold getenv
  cases h : (dedup l).find? (fun e => (splitEntry e).1 == n) with
  | none =>
    have : lk n (dedup l) = none := by
      rw [lk_none]
      intro e he heq
      have := List.find?_eq_none.1 h e he
      simp [heq] at this
    rw [lk_dedup] at this
    rw [this]; rfl
  | some e =>
    have hn := List.find?_some h
    have := (mem_dedup (List.mem_of_find?_eq_some h)).2
    simp only [beq_iff_eq] at hn
    rw [hn] at this
    rw [this]; rfl

theorem strip_eq {n e : List Char} : (envPrefix.isPrefixOf e = true ∧ e.drop envPrefix.length = n) ↔ e = envPrefix ++ n := by
  constructor
  · rintro ⟨h1, h2⟩
    obtain ⟨k, rfl⟩ := List.isPrefixOf_iff_prefix.1 h1
    rw [List.drop_left] at h2
    rw [h2]
  · rintro rfl
    exact ⟨List.isPrefixOf_iff_prefix.2 ⟨n, rfl⟩, List.drop_left⟩

theorem lk_buildEnv {n : List Char} {l : List (List Char)} : lk n (buildEnv l) = lk (envPrefix ++ n) l := by
  induction l with
  | nil => rfl
  | cons e es ih =>
    have hb : buildEnv (e :: es) = (if envPrefix.isPrefixOf (splitEntry e).1 then
        [entry ((splitEntry e).1.drop envPrefix.length) (splitEntry e).2] else []) ++ buildEnv es := by
      unfold buildEnv
      rw [List.filterMap_cons]
      split
      · rename_i h; split at h
        · cases h
        · rename_i h'; simp [h']
      · rename_i h; split at h
        · rename_i h'; cases h; simp [h']
        · cases h
    rw [hb, lk_append, ih, lk]
    congr 1
    have hstrip := @strip_eq n (splitEntry e).1
    have hne : '=' ∉ (splitEntry e).1.drop envPrefix.length := fun h => split_name e (List.mem_of_mem_drop h)
    by_cases hp : envPrefix.isPrefixOf (splitEntry e).1 = true
    · simp only [hp, true_and, if_true] at hstrip ⊢
      simp only [lk, split_entry hne, Option.none_or, hstrip]
    · have : (splitEntry e).1 ≠ envPrefix ++ n := fun h => hp (hstrip.2 h).1
      simp [hp, this, lk]

theorem lk_env {n : List Char} {f : String → List Char} : ∀ {env : StrMap} {v : List Char}, (env.map (·.1)).Nodup →
    (∀ kv ∈ env, '=' ∉ f kv.1) → (∀ a b, f a = f b → a = b) →
    (lk n (env.map fun kv => entry (f kv.1) kv.2.toList) = some v ↔ ∃ kv ∈ env, f kv.1 = n ∧ kv.2.toList = v)
  | [], v, _, _, _ => by simp [lk]
  | kv :: env, v, hnd, hne, hinj => by
    have ih := fun w => lk_env (n := n) (f := f) (env := env) (v := w) (List.nodup_cons.1 hnd).2 (fun kv h => hne kv (by simp [h])) hinj
    have hno := (List.nodup_cons.1 hnd).1
    simp only [List.map_cons, lk, split_entry (hne kv (by simp)), List.mem_cons, exists_eq_or_imp]
    cases h : lk n (env.map fun kv => entry (f kv.1) kv.2.toList) with
    | some w =>
      obtain ⟨kv', hm, hf, hv⟩ := (ih w).1 h
      have : f kv.1 ≠ n := by
        intro h'
        exact hno (List.mem_map.2 ⟨kv', hm, (hinj _ _ (h'.trans hf.symm)).symm⟩)
      rw [← ih v, h]
      simp [this]
    | none =>
      have : ¬ ∃ kv ∈ env, f kv.1 = n ∧ kv.2.toList = v := by rw [← ih v, h]; simp
      simp [this]

theorem wf_entry {n v : List Char} (h : '=' ∉ n) : WF (entry n v) := ⟨n, v, h, rfl⟩

theorem toList_inj {a b : String} (h : a.toList = b.toList) : a = b := String.toList_inj.1 h

theorem notin_prefix {n : List Char} (h : '=' ∉ n) : '=' ∉ envPrefix ++ n := by
  intro h'
  rcases List.mem_append.1 h' with h' | h'
  · exact absurd h' (by decide +kernel)
  · exact h h'

theorem or_ite {a n v : List Char} {z : Option (List Char)} :
    (if a = n then some v else none).or z = if n = a then some v else z := by
  by_cases h : a = n
  · simp [h]
  · have : ¬ n = a := fun h' => h h'.symm
    simp [h, this]

/-- the value of `n` in the environment of the wrapper -/
theorem lk_wrapper {cfg : Config} {x : Task} {d : Nat} (n : List Char) :
    lk n (wrapperEnv cfg x d) =
      if n = "HOME".toList then some cfg.hostHome.toList
      else if n = "PATH".toList then some cfg.hostPath.toList
      else if n = "WORKDIR".toList then some (cfg.dir d).toList
      else if n = envPrefix ++ "TORK_PROGRESS".toList then some (cfg.dir d ++ "/progress").toList
      else if n = envPrefix ++ "TORK_OUTPUT".toList then some (cfg.dir d ++ "/stdout").toList
      else lk n (x.env.map fun kv => entry (envPrefix ++ kv.1.toList) kv.2.toList) := by
  unfold wrapperEnv
  rw [lk_append]
  have e1 : '=' ∉ "HOME".toList := by decide +kernel
  have e2 : '=' ∉ "PATH".toList := by decide +kernel
  have e3 : '=' ∉ "WORKDIR".toList := by decide +kernel
  have e4 : '=' ∉ envPrefix ++ "TORK_PROGRESS".toList := by decide +kernel
  have e5 : '=' ∉ envPrefix ++ "TORK_OUTPUT".toList := by decide +kernel
  simp only [lk, split_entry e1, split_entry e2, split_entry e3, split_entry e4, split_entry e5, Option.none_or]
  simp only [Option.or_assoc]
  repeat rw [or_ite]

theorem wf_buildEnv {l : List (List Char)} : ∀ e ∈ buildEnv l, WF e := by
  intro e he
  unfold buildEnv at he
  obtain ⟨a, _, ha⟩ := List.mem_filterMap.1 he
  split at ha
  · cases ha
    exact wf_entry fun h => split_name a (List.mem_of_mem_drop h)
  · cases ha

theorem shell_env {cfg : Config} {x : Task} {d : Nat} (hg : GoodNames x) (e : List Char) :
    e ∈ shellEnv (dedup (wrapperEnv cfg x d)) ↔ ∃ n v : String, '=' ∉ n.toList ∧ e = entry n.toList v.toList ∧ Sees cfg d x n v := by
  have hW : getenv (dedup (wrapperEnv cfg x d)) "WORKDIR".toList = (cfg.dir d).toList := by
    rw [getenv_dedup, lk_wrapper, if_neg (by decide +kernel), if_neg (by decide +kernel), if_pos rfl]; rfl
  have hP : getenv (dedup (wrapperEnv cfg x d)) "PATH".toList = cfg.hostPath.toList := by
    rw [getenv_dedup, lk_wrapper, if_neg (by decide +kernel), if_pos rfl]; rfl
  have hH : getenv (dedup (wrapperEnv cfg x d)) "HOME".toList = cfg.hostHome.toList := by
    rw [getenv_dedup, lk_wrapper, if_pos rfl]; rfl
  have e1 : '=' ∉ "HOME".toList := by decide +kernel
  have e2 : '=' ∉ "PATH".toList := by decide +kernel
  have e3 : '=' ∉ "WORKDIR".toList := by decide +kernel
  unfold shellEnv
  rw [hW, hP, hH]
  generalize hl : buildEnv (dedup (wrapperEnv cfg x d)) ++ [entry "WORKDIR".toList (cfg.dir d).toList,
    entry "PATH".toList cfg.hostPath.toList, entry "HOME".toList cfg.hostHome.toList] = l
  have hwf : ∀ e ∈ l, WF e := by
    subst hl
    intro e he
    rcases List.mem_append.1 he with he | he
    · exact wf_buildEnv e he
    · simp only [List.mem_cons, List.not_mem_nil, or_false] at he
      rcases he with rfl | rfl | rfl
      · exact wf_entry e3
      · exact wf_entry e2
      · exact wf_entry e1
  have key : ∀ n v : String, '=' ∉ n.toList → (lk n.toList l = some v.toList ↔ Sees cfg d x n v) := by
    intro n v hn
    subst hl
    rw [lk_append, lk_buildEnv, lk_dedup, lk_wrapper, if_neg (by
      intro h
      have := congrArg (·.head?) h
      simp [envPrefix] at this), if_neg (by
      intro h
      have := congrArg (·.head?) h
      simp [envPrefix] at this), if_neg (by
      intro h
      have := congrArg (·.head?) h
      simp [envPrefix] at this)]
    simp only [lk, split_entry e1, split_entry e2, split_entry e3, Option.none_or, List.append_cancel_left_eq]
    have henv := lk_env (n := envPrefix ++ n.toList) (f := fun s => envPrefix ++ s.toList) (v := v.toList) hg.1
      (fun kv h => notin_prefix (hg.2 kv h)) (fun a b h => toList_inj (List.append_cancel_left h))
    have hmem : (∃ kv ∈ x.env, envPrefix ++ kv.1.toList = envPrefix ++ n.toList ∧ kv.2.toList = v.toList) ↔ (n, v) ∈ x.env := by
      constructor
      · rintro ⟨⟨a, b⟩, hm, h1, h2⟩
        rw [← toList_inj (List.append_cancel_left h1), ← toList_inj h2]; exact hm
      · intro h; exact ⟨(n, v), h, rfl, rfl⟩
    rw [hmem] at henv
    unfold Sees
    rw [← henv]
    have hs : ∀ m : String, (n.toList = m.toList) = (n = m) := fun m => propext String.toList_inj
    have hs' : ∀ m : String, (m.toList = n.toList) = (n = m) := fun m => propext ⟨fun h => (toList_inj h).symm, fun h => by rw [h]⟩
    have hv : ∀ m : String, (some m.toList = some v.toList) = (v = m) :=
      fun m => propext ⟨fun h => (toList_inj (Option.some.inj h)).symm, fun h => by rw [h]⟩
    simp only [hs, hs']
    by_cases h1 : n = "WORKDIR"
    · subst h1; simp [hv]
    by_cases h2 : n = "PATH"
    · subst h2; simp [hv]
    by_cases h3 : n = "HOME"
    · subst h3; simp [hv]
    by_cases h4 : n = "TORK_OUTPUT"
    · subst h4; simp [-String.toList_append, hv]
    by_cases h5 : n = "TORK_PROGRESS"
    · subst h5; simp [-String.toList_append, hv]
    simp [h1, h2, h3, h4, h5]
  constructor
  · intro he
    obtain ⟨hm, hlk⟩ := mem_dedup he
    have hn := split_name e
    have heq := (hwf e hm).eq
    refine ⟨String.ofList (splitEntry e).1, String.ofList (splitEntry e).2, by simpa using hn, by simpa using heq, ?_⟩
    rw [← key _ _ (by simpa using hn)]
    simpa using hlk
  · rintro ⟨n, v, hn, rfl, hs⟩
    exact (mem_dedup_iff hn hwf).2 ((key n v hn).2 hs)

/-! ## Theorems -/

theorem mid_spawn {cfg : Config} {t : Task} {d : Nat} {mid : List Ev} {o : Option String} (hm : Mid cfg t d mid o)
    {d' : Nat} {a : List String} {env : List (List Char)} {r : Reply} (h : (Call.spawn d' a env, r) ∈ mid) :
    d' = d ∧ env = wrapperEnv cfg t d := by
  cases hm with
  | write ws f c r hw hr =>
    rcases List.mem_append.1 h with hq | hq
    · obtain ⟨_, _, h1, _⟩ := hw _ hq; cases h1
    · simp at hq
  | rest ws l r1 o hw hf he hl =>
    rcases List.mem_append.1 h with hq | hq
    · obtain ⟨_, _, h1, _⟩ := hw _ hq; cases h1
    · rcases hl with ⟨hr1, rfl, rfl⟩ | ⟨hr1, r2, ⟨hr2, ⟨r, rfl⟩, rfl⟩ | ⟨hr2, hc, rfl, rfl⟩ | ⟨hr2, hc, r3, rfl, rfl⟩⟩ <;>
        (simp at hq; exact ⟨hq.1.1, hq.1.2.2⟩)

theorem doRun_spawn {cfg : Config} {t : Task} {n n' : Nat} {l : List Ev} {o : Option String} (h : Runs (doRun cfg t) n l o n')
    {d : Nat} {a : List String} {env : List (List Char)} {r : Reply} (hs : (Call.spawn d a env, r) ∈ l) : env = wrapperEnv cfg t d := by
  obtain ⟨-, ⟨r, rfl, hr, rfl⟩ | ⟨r0, mid, r4, rfl, hr0, hm⟩⟩ := runs_doRun h
  · simp at hs
  · simp only [List.cons_append, List.mem_cons, List.mem_append, List.not_mem_nil, or_false, Prod.mk.injEq, reduceCtorEq, false_and,
      false_or] at hs
    obtain ⟨rfl, h2⟩ := mid_spawn hm hs
    exact h2

theorem runAll_spawn {cfg : Config} {d : Nat} {a : List String} {env : List (List Char)} {r : Reply} :
    ∀ {ts : List Task} {n n' : Nat} {l : List Ev} {b : Bool}, Runs (runAll cfg ts) n l b n' → (Call.spawn d a env, r) ∈ l →
      ∃ x ∈ ts, env = wrapperEnv cfg x d
  | [], n, n', l, b, h, hs => by obtain ⟨rfl, rfl, rfl⟩ := h; cases hs
  | t :: ts, n, n', l, b, h, hs => by
    replace h := runs_bind.1 h
    obtain ⟨o, l1, l2, m, rfl, h1, h⟩ := h
    rcases List.mem_append.1 hs with hs | hs
    · exact ⟨t, by simp, doRun_spawn h1 hs⟩
    · cases o with
      | none => obtain ⟨rfl, rfl, rfl⟩ := h; cases hs
      | some res =>
        obtain ⟨x, hx, he⟩ := runAll_spawn h hs
        exact ⟨x, by simp [hx], he⟩

/-- **C63 (environment).** Whatever shell is started during a run, it is started for one of the pre-tasks, the task or one of its
post-tasks, and sees exactly these variables: `WORKDIR`, `PATH`, `HOME`, `TORK_OUTPUT` and `TORK_PROGRESS` as set by the worker, and those
of its own task (a variable with one of the five names is overridden). No other variable of the worker reaches it. -/
theorem C63_environment {cfg : Config} {t : Task} {n n' : Nat} {l : List Ev} {o : Option String} (h : Runs (run cfg t) n l o n')
    (hg : ∀ x ∈ t.pre ++ t :: t.post, GoodNames x) {d : Nat} {args : List String} {env : List (List Char)} {r : Reply}
    (hs : (Call.spawn d args env, r) ∈ l) :
    ∃ x ∈ t.pre ++ t :: t.post, ∀ e, e ∈ shellEnv (dedup env) ↔
      ∃ n v : String, '=' ∉ n.toList ∧ e = n.toList ++ '=' :: v.toList ∧ Sees cfg d x n v := by
  suffices ∃ x ∈ t.pre ++ t :: t.post, env = wrapperEnv cfg x d by
    obtain ⟨x, hx, rfl⟩ := this
    exact ⟨x, hx, fun e => shell_env (hg x hx) e⟩
  unfold run at h
  replace h := runs_ite h
  rcases h with ⟨-, h⟩ | ⟨-, h⟩
  · obtain ⟨rfl, -, -⟩ := h; cases hs
  · replace h := runs_bind.1 h
    obtain ⟨ok, l1, l2, m, rfl, h1, h⟩ := h
    rcases List.mem_append.1 hs with hs | hs
    · obtain ⟨x, hx, he⟩ := runAll_spawn h1 hs
      exact ⟨x, by simp [hx], he⟩
    · replace h := runs_ite h
      rcases h with ⟨-, h⟩ | ⟨-, h⟩
      · obtain ⟨rfl, -, -⟩ := h; cases hs
      · replace h := runs_bind.1 h
        obtain ⟨o1, l3, l4, m', rfl, h2, h⟩ := h
        rcases List.mem_append.1 hs with hs | hs
        · exact ⟨t, by simp, doRun_spawn h2 hs⟩
        · cases o1 with
          | none => obtain ⟨rfl, -, -⟩ := h; cases hs
          | some res =>
            replace h := runs_bind.1 h
            obtain ⟨ok', l5, l6, m'', rfl, h3, h⟩ := h
            rcases List.mem_append.1 hs with hs | hs
            · obtain ⟨x, hx, he⟩ := runAll_spawn h3 hs
              exact ⟨x, by simp [hx], he⟩
            · replace h := runs_ite h
              rcases h with ⟨-, h⟩ | ⟨-, h⟩ <;> (obtain ⟨rfl, -, -⟩ := h; cases hs)

/-- **C63 (identity).** If the shell is run at all, it runs as the configured user and group, or, where none is configured, as those of the
worker. A root worker gives them up for good: nothing of the old user is left in the process. -/
theorem C63_identity {parse : String → Option Nat} {cfg : Config} {w c : Cred} (h : identity parse cfg w = some c) :
    (cfg.uid ≠ "-" → parse cfg.uid = some c.euid) ∧
    (cfg.uid = "-" → c.ruid = w.ruid ∧ c.euid = w.euid ∧ c.suid = w.suid) ∧
    (cfg.gid ≠ "-" → parse cfg.gid = some c.egid) ∧
    (cfg.gid = "-" → c.rgid = w.rgid ∧ c.egid = w.egid ∧ c.sgid = w.sgid) ∧
    (cfg.uid ≠ "-" → w.euid = 0 → c.ruid = c.euid ∧ c.suid = c.euid) := by
  unfold identity at h
  obtain ⟨c1, h1, h2⟩ := Option.bind_eq_some_iff.1 h
  unfold SetUID at h1
  unfold SetGID at h2
  have hu : ∀ {c c' : Cred} {u : Nat}, setuid c u = some c' →
      c'.euid = u ∧ c'.rgid = c.rgid ∧ c'.egid = c.egid ∧ c'.sgid = c.sgid ∧ (c.euid = 0 → c'.ruid = u ∧ c'.suid = u) := by
    intro c c' u h
    unfold setuid at h
    grind
  have hg : ∀ {c c' : Cred} {g : Nat}, setgid c g = some c' →
      c'.egid = g ∧ c'.ruid = c.ruid ∧ c'.euid = c.euid ∧ c'.suid = c.suid := by
    intro c c' u h
    unfold setgid at h
    grind
  split at h1
  · rename_i hne
    obtain ⟨u, hp, hs⟩ := Option.bind_eq_some_iff.1 h1
    have a := hu hs
    split at h2
    · rename_i hne'
      obtain ⟨g, hp', hs'⟩ := Option.bind_eq_some_iff.1 h2
      have b := hg hs'
      grind
    · cases h2; grind
  · cases h1
    split at h2
    · obtain ⟨g, hp', hs'⟩ := Option.bind_eq_some_iff.1 h2
      have b := hg hs'
      grind
    · cases h2; grind

/-- **C63 (identity, defect).** The user is changed before the group. A root worker that is told to run tasks as another user and in
another group therefore never runs one: having given up its privileges, it is refused the group. -/
theorem C63_group_refused {parse : String → Option Nat} {cfg : Config} {w : Cred} {u g : Nat} (hroot : w.euid = 0)
    (hu : cfg.uid ≠ "-") (hg : cfg.gid ≠ "-") (hpu : parse cfg.uid = some u) (hpg : parse cfg.gid = some g) (h0 : u ≠ 0)
    (hr : g ≠ w.rgid) (hs : g ≠ w.sgid) : identity parse cfg w = none := by
  simp [identity, SetUID, SetGID, hu, hg, hpu, hpg, setuid, setgid, hroot, h0, hr, hs]

/-! ## Examples -/

namespace Ex

def root : Cred := { ruid := 0, euid := 0, suid := 0, rgid := 0, egid := 0, sgid := 0 }
def parse (s : String) : Option Nat := if s = "1000" then some 1000 else if s = "2000" then some 2000 else none

/-- a root worker configured with a user alone: the shell runs as that user -/
example : identity parse { uid := "1000" } root = some { ruid := 1000, euid := 1000, suid := 1000, rgid := 0, egid := 0, sgid := 0 } := by
  decide +kernel

/-- … with a group alone: the shell stays root -/
example : (identity parse { gid := "2000" } root).map (·.euid) = some 0 := by decide +kernel

/-- … with both: every task fails -/
example : identity parse { uid := "1000", gid := "2000" } root = none :=
  C63_group_refused (u := 1000) (g := 2000) rfl (by decide) (by decide) (by decide +kernel) (by decide +kernel) (by decide) (by decide)
    (by decide)

def cfg : Config := { hostPath := "/bin", hostHome := "/root" }
def pre : Task := { id := 1, run := "echo pre" }
def main : Task :=
  { id := 2, run := "echo $A > $TORK_OUTPUT", env := [("A", "x=y"), ("PATH", "/evil")], files := [("../a", "data")], pre := [pre] }

def ok (n : Nat) : List Reply := List.replicate n {}

/-- the replies: the pre-task succeeds, then the task, with result `x` -/
def good : List Reply := ok 8 ++ ok 7 ++ [{ text := "x" }] ++ ok 1

/-- a run with a pre-task; it meets the hypotheses of the theorems above -/
example : (play (run cfg main) 0 good).map (·.2) = some (some "x") := by decide +kernel

/-- the calls of that run. The file named `../a` is written outside of the directory of the task, by the worker itself. -/
example : ((play (run cfg main) 0 good).map fun x => x.1.map fun e => match e.1 with
      | .spawn d a _ => (s!"spawn {d}", a) | .write p c => (p, [c]) | .mkdir d => ("mkdir", [toString d]) | .wait d => ("wait", [toString d])
      | .kill d => ("kill", [toString d]) | .read p => ("read", [p]) | .rmdir d => ("rmdir", [toString d])) =
    some [("mkdir", ["0"]), ("/tmp/tork0/stdout", [""]), ("/tmp/tork0/progress", [""]), ("/tmp/tork0/entrypoint", ["echo pre"]),
      ("spawn 0", ["shell", "-uid", "-", "-gid", "-", "bash", "-c", "/tmp/tork0/entrypoint"]), ("wait", ["0"]),
      ("read", ["/tmp/tork0/stdout"]), ("rmdir", ["0"]),
      ("mkdir", ["1"]), ("/tmp/tork1/stdout", [""]), ("/tmp/tork1/progress", [""]), ("/tmp/tork1/../a", ["data"]),
      ("/tmp/tork1/entrypoint", ["echo $A > $TORK_OUTPUT"]),
      ("spawn 1", ["shell", "-uid", "-", "-gid", "-", "bash", "-c", "/tmp/tork1/entrypoint"]), ("wait", ["1"]),
      ("read", ["/tmp/tork1/stdout"]), ("rmdir", ["1"])] := by decide +kernel

/-- the environment of the shell of the task -/
example : shellEnv (dedup (wrapperEnv cfg main 1)) =
    ["A=x=y", "TORK_OUTPUT=/tmp/tork1/stdout", "TORK_PROGRESS=/tmp/tork1/progress", "WORKDIR=/tmp/tork1", "PATH=/bin", "HOME=/root"].map
      (·.toList) := by decide +kernel

example : GoodNames main := ⟨by decide +kernel, by decide +kernel⟩

/-- a cancelled task: the process is killed, the directory removed, the run fails -/
example : (play (run cfg pre) 0 (ok 5 ++ [{ ok := false }] ++ ok 2)).map
    (fun x => (x.2, (x.1.drop 5).map (·.1))) = some (none, [.wait 0, .kill 0, .rmdir 0]) := by decide +kernel

end Ex

end Tork.Shell
