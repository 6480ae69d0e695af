import Verif.Types
/-!
# What template evaluation of a task is supposed to do (independent of the evaluator)
-/

namespace Tork

/-- A white space character of Unicode (25 of them). -/
def White (c : Char) : Prop :=
  c.toNat ∈ [0x9, 0xA, 0xB, 0xC, 0xD, 0x20, 0x85, 0xA0, 0x1680, 0x2000, 0x2001, 0x2002, 0x2003, 0x2004, 0x2005, 0x2006, 0x2007, 0x2008,
    0x2009, 0x200A, 0x2028, 0x2029, 0x202F, 0x205F, 0x3000]

/-- The word `false`, with or without white space around it. -/
def IsFalse (cond : String) : Prop :=
  ∃ w1 w2 : List Char, (∀ c ∈ w1, White c) ∧ (∀ c ∈ w2, White c) ∧ cond.toList = w1 ++ ['f', 'a', 'l', 's', 'e'] ++ w2

/-- A piece of a template: literal text or an expression tag with its surrounding white space. -/
inductive Piece
  | text (s : List Char)
  | tag (before expr after : List Char)

/-- White space of the tag syntax. -/
def tagSpace (c : Char) : Prop := c = ' ' ∨ c = '\t' ∨ c = '\n' ∨ c = '\r' ∨ c = Char.ofNat 12

/-- A literal has no opening brace; an expression is non-empty, on one line, without closing braces and does
not start or end with white space. -/
def Piece.ok : Piece → Prop
  | .text s => '{' ∉ s
  | .tag b e a => (∀ c ∈ b, tagSpace c) ∧ (∀ c ∈ a, tagSpace c) ∧ '}' ∉ e ∧ '\n' ∉ e ∧
      (∃ c s, e = c :: s ∧ ¬ tagSpace c) ∧ (∃ s c, e = s ++ [c] ∧ ¬ tagSpace c)

/-- The text of a template. -/
def Piece.render : Piece → List Char
  | .text s => s
  | .tag b e a => ['{', '{'] ++ b ++ e ++ a ++ ['}', '}']

def renderAll (ps : List Piece) : List Char := ps.flatMap Piece.render

/-- The result of a template if expression `e` has the value `val e`. -/
def Piece.value (val : String → String) : Piece → List Char
  | .text s => s
  | .tag _ e _ => (val (String.ofList e)).toList

/-- The expressions of a template. -/
def Piece.exprs : Piece → List String
  | .text _ => []
  | .tag _ e _ => [String.ofList e]

def mapVals (g : String → String) (m : StrMap) : StrMap := m.map fun kv => (kv.1, g kv.2)

mutual
/-- Apply `g` to every text of a task that is subject to evaluation and to nothing else. -/
def Task.mapTexts (g : String → String) : Task → Task
  | t@{ pre := pre, post := post, parallel := par, .. } =>
    { t with
      name := g t.name
      var := g t.var
      image := g t.image
      queue := g t.queue
      env := mapVals g t.env
      cond := g t.cond
      pre := mapTextsL g pre
      post := mapTextsL g post
      parallel := mapTextsP g par
      cmd := t.cmd.map g
      subJob := t.subJob.map fun s => { s with
        name := g s.name
        inputs := mapVals g s.inputs
        secrets := mapVals g s.secrets
        webhooks := s.webhooks.map fun w => { w with url := g w.url, headers := mapVals g w.headers } } }
def mapTextsL (g : String → String) : List Task → List Task
  | [] => []
  | t :: ts => t.mapTexts g :: mapTextsL g ts
def mapTextsP (g : String → String) : Option (ParallelTask Task) → Option (ParallelTask Task)
  | none => none
  | some { tasks := ts, completions := c } => some { tasks := mapTextsL g ts, completions := c }
end

/-- The texts of a sub-job section that are subject to evaluation. -/
def subTexts : Option (SubJobTask Task) → List String
  | none => []
  | some s => [s.name] ++ s.inputs.map (·.2) ++ s.secrets.map (·.2) ++
      s.webhooks.flatMap fun w => w.url :: w.headers.map (·.2)

mutual
/-- The texts of a task that are subject to evaluation. -/
def Task.texts : Task → List String
  | t@{ pre := pre, post := post, parallel := par, .. } =>
    [t.name, t.var, t.image, t.queue] ++ t.env.map (·.2) ++ [t.cond] ++ textsL pre ++ textsL post ++
      textsP par ++ t.cmd ++
      subTexts t.subJob
def textsL : List Task → List String
  | [] => []
  | t :: ts => t.texts ++ textsL ts
def textsP : Option (ParallelTask Task) → List String
  | none => []
  | some { tasks := ts, completions := _ } => textsL ts
end

theorem Task.texts_eq (t : Task) : t.texts =
    [t.name, t.var, t.image, t.queue] ++ t.env.map (·.2) ++ [t.cond] ++ textsL t.pre ++ textsL t.post ++
      textsP t.parallel ++ t.cmd ++
      subTexts t.subJob := by
  cases t; rw [Task.texts]

theorem Task.mapTexts_eq (g : String → String) (t : Task) : t.mapTexts g = { t with
      name := g t.name
      var := g t.var
      image := g t.image
      queue := g t.queue
      env := mapVals g t.env
      cond := g t.cond
      pre := mapTextsL g t.pre
      post := mapTextsL g t.post
      parallel := mapTextsP g t.parallel
      cmd := t.cmd.map g
      subJob := t.subJob.map fun s => { s with
        name := g s.name
        inputs := mapVals g s.inputs
        secrets := mapVals g s.secrets
        webhooks := s.webhooks.map fun w => { w with url := g w.url, headers := mapVals g w.headers } } } := by
  cases t; rw [Task.mapTexts]

theorem Task.sizeOf_pre (t : Task) : sizeOf t.pre < sizeOf t := by cases t; simp; omega
theorem Task.sizeOf_post (t : Task) : sizeOf t.post < sizeOf t := by cases t; simp; omega
theorem Task.sizeOf_sidecars (t : Task) : sizeOf t.sidecars < sizeOf t := by cases t; simp; omega
theorem Task.sizeOf_parallel (t : Task) : sizeOf t.parallel < sizeOf t := by cases t; simp; omega
theorem Task.sizeOf_each (t : Task) : sizeOf t.each < sizeOf t := by cases t; simp; omega
theorem Task.sizeOf_subJob (t : Task) : sizeOf t.subJob < sizeOf t := by cases t; simp; omega

end Tork
