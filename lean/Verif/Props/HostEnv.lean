import Verif.HostEnv
/-!
# C50 — host environment variables
-/

namespace Tork.HostEnv

/-- `spec` names host variable `name` to be visible as `alias`. -/
def Names (spec name al : String) : Prop :=
  ':' ∉ name.toList ∧ ':' ∉ al.toList ∧ ((spec = name ∧ al = name) ∨ spec.toList = name.toList ++ ':' :: al.toList)

/-- The configuration makes `name` visible as `alias`: the last specification of `name` says so. -/
def Configured (specs : List String) (name al : String) : Prop :=
  ∃ a spec b, specs = a ++ spec :: b ∧ Names spec name al ∧ ∀ s ∈ b, ∀ al', ¬ Names s name al'

theorem split_free {w : List Char} (h : ':' ∉ w) : split w = [w] := by
  induction w with
  | nil => rfl
  | cons c w ih =>
    simp only [List.mem_cons, not_or] at h
    rw [split, if_neg (fun e => h.1 e.symm), ih h.2]

theorem split_cons {w rest : List Char} (h : ':' ∉ w) : split (w ++ ':' :: rest) = w :: split rest := by
  induction w with
  | nil => simp [split]
  | cons c w ih =>
    simp only [List.mem_cons, not_or] at h
    rw [List.cons_append, split, if_neg (fun e => h.1 e.symm), ih h.2]

theorem split_ne (w : List Char) : split w ≠ [] := by
  cases w with
  | nil => simp [split]
  | cons c w => rw [split]; split; simp; split <;> simp

theorem split_one {w a : List Char} (h : split w = [a]) : ':' ∉ w ∧ a = w := by
  induction w generalizing a with
  | nil => simp [split] at h; simp [h]
  | cons c w ih =>
    rw [split] at h
    by_cases e : c = ':'
    · rw [if_pos e] at h; simp [split_ne] at h
    · rw [if_neg e] at h
      cases hs : split w with
      | nil => exact absurd hs (split_ne w)
      | cons x xs =>
        rw [hs] at h
        simp only [List.cons.injEq] at h
        obtain ⟨h1, rfl⟩ := h
        have := ih hs
        exact ⟨by simp [this.1, Ne.symm e], by rw [← h1, this.2]⟩

theorem split_two {w a b : List Char} (h : split w = [a, b]) : ':' ∉ a ∧ ':' ∉ b ∧ w = a ++ ':' :: b := by
  induction w generalizing a with
  | nil => simp [split] at h
  | cons c w ih =>
    rw [split] at h
    by_cases e : c = ':'
    · rw [if_pos e] at h
      simp only [List.cons.injEq] at h
      obtain ⟨rfl, h⟩ := h
      have := split_one h
      exact ⟨by simp, this.2 ▸ this.1, by rw [e, this.2]; rfl⟩
    · rw [if_neg e] at h
      cases hs : split w with
      | nil => exact absurd hs (split_ne w)
      | cons x xs =>
        rw [hs] at h
        simp only [List.cons.injEq] at h
        obtain ⟨h1, rfl⟩ := h
        have := ih hs
        subst h1
        refine ⟨?_, this.2.1, by rw [this.2.2]; rfl⟩
        simp [this.1, Ne.symm e]

/-- Distinct keys. -/
def Keys (m : StrMap) : Prop := (m.map (·.1)).Nodup

theorem mget_mset (m : StrMap) (k v k' : String) : mget (mset m k v) k' = if k' = k then some v else mget m k' := by
  induction m with
  | nil => simp only [mset, mget]; by_cases e : k = k' <;> simp [e, eq_comm]
  | cons p m ih =>
    obtain ⟨a, b⟩ := p
    rw [mset]
    by_cases e : a = k
    · rw [if_pos e]; subst e; simp only [mget]
      by_cases e' : a = k'
      · simp [e']
      · simp [e', Ne.symm e']
    · rw [if_neg e]; simp only [mget]
      by_cases e' : a = k'
      · subst e'; simp [e]
      · simp [e', ih]

theorem keys_mset (m : StrMap) (k v : String) : (mset m k v).map (·.1) = if k ∈ m.map (·.1) then m.map (·.1) else m.map (·.1) ++ [k] := by
  induction m with
  | nil => simp [mset]
  | cons p m ih =>
    obtain ⟨a, b⟩ := p
    rw [mset]
    by_cases e : a = k
    · simp [e]
    · rw [if_neg e]
      simp only [List.map_cons, ih, List.mem_cons, Ne.symm e, false_or]
      split <;> simp

theorem Keys.mset {m : StrMap} (h : Keys m) (k v : String) : Keys (mset m k v) := by
  unfold Keys at *
  rw [keys_mset]
  split
  · exact h
  · rw [List.nodup_append]
    refine ⟨h, by simp, ?_⟩
    intro a ha b hb
    simp at hb; subst hb
    rename_i hn
    exact fun e => hn (e ▸ ha)

theorem mget_iff {m : StrMap} (h : Keys m) (k v : String) : mget m k = some v ↔ (k, v) ∈ m := by
  induction m with
  | nil => simp [mget]
  | cons p m ih =>
    obtain ⟨a, b⟩ := p
    have h' : a ∉ m.map (·.1) ∧ Keys m := by simpa [Keys] using h
    simp only [mget]
    by_cases e : a = k
    · subst e
      have : (a, v) ∉ m := fun hm => h'.1 (List.mem_map.2 ⟨_, hm, rfl⟩)
      simp [this, eq_comm]
    · rw [if_neg e, ih h'.2]
      simp [Ne.symm e]

theorem newHostEnv_spec {specs : List String} {v0 vars : StrMap} (h : newHostEnv specs v0 = some vars) (hk : Keys v0) :
    Keys vars ∧ (∀ s ∈ specs, ∃ n a, Names s n a) ∧
    ∀ n a, mget vars n = some a ↔ Configured specs n a ∨ (mget v0 n = some a ∧ ∀ s ∈ specs, ∀ a', ¬ Names s n a') := by
  induction specs generalizing v0 with
  | nil =>
    rw [newHostEnv] at h; cases h
    refine ⟨hk, by simp, ?_⟩
    intro n a
    constructor
    · intro h; exact .inr ⟨h, by simp⟩
    · rintro (⟨x, s, y, e, _⟩ | h)
      · simp at e
      · exact h.1
  | cons s ss ih =>
    -- the one name of this specification
    have key : ∀ n a, Names s n a → newHostEnv ss (mset v0 n a) = some vars → (∀ n' a', Names s n' a' → n' = n ∧ a' = a) →
        Keys vars ∧ (∀ s' ∈ s :: ss, ∃ n a, Names s' n a) ∧
        ∀ n a, mget vars n = some a ↔ Configured (s :: ss) n a ∨ (mget v0 n = some a ∧ ∀ s' ∈ s :: ss, ∀ a', ¬ Names s' n a') := by
      intro n a hn hx hu
      obtain ⟨i1, i2, i3⟩ := ih hx (hk.mset n a)
      refine ⟨i1, ?_, ?_⟩
      · intro s' hs'
        rcases List.mem_cons.1 hs' with rfl | hs'
        · exact ⟨n, a, hn⟩
        · exact i2 s' hs'
      · intro n' a'
        rw [i3, mget_mset]
        constructor
        · rintro (⟨x, t, y, e, h1, h2⟩ | ⟨h1, h2⟩)
          · exact .inl ⟨s :: x, t, y, by rw [e]; rfl, h1, h2⟩
          · by_cases e : n' = n
            · rw [if_pos e] at h1
              simp only [Option.some.injEq] at h1
              subst e; subst h1
              exact .inl ⟨[], s, ss, rfl, hn, h2⟩
            · rw [if_neg e] at h1
              refine .inr ⟨h1, ?_⟩
              intro s' hs' a'' hn'
              rcases List.mem_cons.1 hs' with rfl | hs'
              · exact e (hu _ _ hn').1
              · exact h2 s' hs' _ hn'
        · rintro (⟨x, t, y, e, h1, h2⟩ | ⟨h1, h2⟩)
          · cases x with
            | nil =>
              simp only [List.nil_append, List.cons.injEq] at e
              obtain ⟨rfl, rfl⟩ := e
              obtain ⟨rfl, rfl⟩ := hu _ _ h1
              exact .inr ⟨by simp, h2⟩
            | cons z x =>
              simp only [List.cons_append, List.cons.injEq] at e
              exact .inl ⟨x, t, y, e.2, h1, h2⟩
          · have : n' ≠ n := fun e => h2 s List.mem_cons_self a (e ▸ hn)
            rw [if_neg this]
            exact .inr ⟨h1, fun s' hs' => h2 s' (List.mem_cons_of_mem _ hs')⟩
    have uniq : ∀ n a n' a', Names s n a → Names s n' a' → n' = n ∧ a' = a := by
      rintro n a n' a' ⟨x1, x2, x3⟩ ⟨y1, y2, y3⟩
      rcases x3 with ⟨rfl, rfl⟩ | x3 <;> rcases y3 with ⟨rfl, rfl⟩ | y3
      · exact ⟨rfl, rfl⟩
      · exact absurd (by rw [y3]; simp) x1
      · exact absurd (by rw [x3]; simp) y1
      · have e1 := split_cons (rest := a.toList) x1
        have e2 := split_cons (rest := a'.toList) y1
        rw [split_free x2, ← x3] at e1
        rw [split_free y2, ← y3, e1] at e2
        simp only [List.cons.injEq, and_true, String.toList_inj] at e2
        exact ⟨e2.1.symm, e2.2.symm⟩
    rw [newHostEnv] at h
    split at h
    · rename_i w hw
      obtain ⟨h1, _⟩ := split_one hw
      have hn : Names s s s := ⟨h1, h1, .inl ⟨rfl, rfl⟩⟩
      exact key s s hn h fun n' a' h' => uniq _ _ _ _ hn h'
    · rename_i w1 w2 hw
      obtain ⟨h1, h2, h3⟩ := split_two hw
      have hn : Names s (String.ofList w1) (String.ofList w2) := ⟨by simpa using h1, by simpa using h2, .inr (by simpa using h3)⟩
      exact key _ _ hn h fun n' a' h' => uniq _ _ _ _ hn h'
    · cases h

/-- **C50 (configuration).** A list of specifications is accepted exactly if each is `NAME` or `NAME:ALIAS` (without
further colons), and then the middleware maps each name to the alias of its last specification. -/
theorem C50_specs (specs : List String) :
    ((newHostEnv specs []).isSome ↔ ∀ s ∈ specs, ∃ n a, Names s n a) ∧
    ∀ vars, newHostEnv specs [] = some vars → ∀ n a, mget vars n = some a ↔ Configured specs n a := by
  have hk : Keys [] := by simp [Keys]
  constructor
  · constructor
    · intro h
      obtain ⟨vars, h⟩ := Option.isSome_iff_exists.1 h
      exact (newHostEnv_spec h hk).2.1
    · generalize ([] : StrMap) = v
      intro h
      induction specs generalizing v with
      | nil => rfl
      | cons s ss ih =>
        obtain ⟨n, a, h1, h2, h3⟩ := h s List.mem_cons_self
        rw [newHostEnv]
        rcases h3 with ⟨rfl, rfl⟩ | h3
        · rw [split_free h1]; exact ih _ fun s' hs' => h s' (List.mem_cons_of_mem _ hs')
        · rw [h3, split_cons h1, split_free h2]; exact ih _ fun s' hs' => h s' (List.mem_cons_of_mem _ hs')
  · intro vars h n a
    rw [(newHostEnv_spec h hk).2.2]
    constructor
    · rintro (h | h)
      · exact h
      · simp [mget] at h
    · exact .inl

theorem mget_setVars (getenv : String → String) (vars env : StrMap) (k : String) :
    (mget (setVars getenv vars env) k = mget env k ∧ ∀ p ∈ vars, p.2 ≠ k) ∨
    ∃ p ∈ vars, p.2 = k ∧ mget (setVars getenv vars env) k = some (getenv p.1) := by
  unfold setVars
  induction vars generalizing env with
  | nil => exact .inl ⟨rfl, by simp⟩
  | cons p vars ih =>
    rw [List.foldl_cons]
    rcases ih (mset env p.2 (getenv p.1)) with ⟨h1, h2⟩ | ⟨q, hq, h1, h2⟩
    · rw [mget_mset] at h1
      by_cases e : k = p.2
      · rw [if_pos e] at h1; exact .inr ⟨p, List.mem_cons_self, e.symm, h1⟩
      · rw [if_neg e] at h1
        refine .inl ⟨h1, ?_⟩
        intro q hq
        rcases List.mem_cons.1 hq with rfl | hq
        · exact fun e' => e e'.symm
        · exact h2 q hq
    · exact .inr ⟨q, List.mem_cons_of_mem _ hq, h1, h2⟩

/-- **C50 (effect).** When a task is about to run, the middleware changes only the environments of the task and of its
pre- and post-tasks (and theirs, at any depth, by the equations for `pre` and `post`): a key that is no configured alias
keeps its value, a configured alias gets the value of a host variable configured for it (`getenv` is `os.Getenv`: the
empty string if it is not set). For every order in which the maps are visited. -/
theorem C50_effect {specs : List String} {vars : StrMap} (hv : newHostEnv specs [] = some vars)
    (getenv : String → String) (ord : Task → StrMap) (ho : ∀ t, (ord t).Perm vars) (t : Task) :
    let t' := setHostVars getenv ord t
    (∀ k, (¬ ∃ n, Configured specs n k) → mget t'.env k = mget t.env k) ∧
    (∀ k, (∃ n, Configured specs n k) → ∃ n, Configured specs n k ∧ mget t'.env k = some (getenv n)) ∧
    t'.pre = t.pre.map (setHostVars getenv ord) ∧ t'.post = t.post.map (setHostVars getenv ord) ∧
    { t' with env := t.env, pre := t.pre, post := t.post } = t := by
  have hl : ∀ ts, setHostVarsL getenv ord ts = ts.map (setHostVars getenv ord) := by
    intro ts; induction ts with
    | nil => rw [setHostVarsL]; rfl
    | cons t ts ih => rw [setHostVarsL, ih]; rfl
  have hk := (newHostEnv_spec hv (by simp [Keys])).1
  have hmem : ∀ n k, (n, k) ∈ ord t ↔ Configured specs n k := by
    intro n k
    rw [(ho t).mem_iff, ← mget_iff hk]
    exact (C50_specs specs).2 vars hv n k
  have he : (setHostVars getenv ord t).env = setVars getenv (ord t) t.env := by cases t; rw [setHostVars]
  refine ⟨?_, ?_, ?_, ?_, ?_⟩
  · intro k hno
    rw [he]
    rcases mget_setVars getenv (ord t) t.env k with h | ⟨p, hp, rfl, _⟩
    · exact h.1
    · exact absurd ⟨p.1, (hmem _ _).1 hp⟩ hno
  · rintro k ⟨n, hn⟩
    rw [he]
    rcases mget_setVars getenv (ord t) t.env k with h | ⟨p, hp, rfl, h⟩
    · exact absurd rfl (h.2 _ ((hmem n k).2 hn))
    · exact ⟨p.1, (hmem _ _).1 hp, h⟩
  · cases t; rw [setHostVars]; exact hl _
  · cases t; rw [setHostVars]; exact hl _
  · cases t; rw [setHostVars]

/-- **C50 (when).** Any other event, and any other state, passes through unchanged. -/
theorem C50_only_when_running (getenv : String → String) (ord : Task → StrMap) (sc : Bool) (t : Task)
    (h : ¬ (sc = true ∧ t.state = .running)) : execute getenv ord sc t = t := by
  unfold execute
  rw [if_neg]
  simpa using h

/-! ### Concrete cases -/

example : newHostEnv ["HOME", "USER:WHO", "HOME:H"] [] = some [("HOME", "H"), ("USER", "WHO")] := by decide +kernel
example : newHostEnv ["A:B:C"] [] = none := by decide +kernel
example : (setHostVars (fun n => if n = "HOME" then "/root" else "") (fun _ => [("HOME", "H"), ("USER", "WHO")])
    { env := [("H", "own"), ("X", "1")], pre := [{ name := "p" }] }).env = [("H", "/root"), ("X", "1"), ("WHO", "")] := by
  simp only [setHostVars, setVars, List.foldl]; decide +kernel

end Tork.HostEnv
