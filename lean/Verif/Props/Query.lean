import Verif.Query
/-!
# C49 — search query parsing

Specification: `Words s ws` says that `ws` are the words of `s`: maximal non-empty runs of non-space characters.
-/

namespace Tork

def Blank (s : List Char) : Prop := ∀ c ∈ s, isSpace c = true
def Word (w : List Char) : Prop := w ≠ [] ∧ ∀ c ∈ w, isSpace c = false

/-- `s` is blank, or a blank followed by a word followed by the end or by a non-empty blank and the other words. -/
inductive Words : List Char → List (List Char) → Prop
  | none {b : List Char} : Blank b → Words b []
  | last {b w : List Char} : Blank b → Word w → Words (b ++ w) [w]
  | more {b w s : List Char} {c : Char} {ws : List (List Char)} :
      Blank b → Word w → isSpace c = true → Words s ws → Words (b ++ w ++ c :: s) (w :: ws)

theorem fieldsAux_blank {b : List Char} (hb : Blank b) (s : List Char) : fieldsAux [] (b ++ s) = fieldsAux [] s := by
  induction b with
  | nil => rfl
  | cons c b ih =>
    have h1 : isSpace c = true := hb c (by simp)
    simp only [List.cons_append, fieldsAux, h1, if_true]
    exact ih fun x hx => hb x (by simp [hx])

theorem fieldsAux_word {w : List Char} (hw : ∀ c ∈ w, isSpace c = false) (cur s : List Char) :
    fieldsAux cur (w ++ s) = fieldsAux (w.reverse ++ cur) s := by
  induction w generalizing cur with
  | nil => rfl
  | cons c w ih =>
    have h1 : isSpace c = false := hw c (by simp)
    simp only [List.cons_append, fieldsAux, h1, Bool.false_eq_true, if_false]
    rw [ih (fun x hx => hw x (by simp [hx]))]
    simp

theorem fields_of_words {s : List Char} {ws : List (List Char)} (h : Words s ws) : fields s = ws := by
  induction h with
  | @none b hb => have := fieldsAux_blank hb []; rw [List.append_nil] at this; exact this
  | @last b w hb hw =>
    unfold fields
    rw [fieldsAux_blank hb]
    have := fieldsAux_word hw.2 [] []
    rw [List.append_nil] at this
    rw [this]
    simp [fieldsAux, hw.1]
  | @more b w s c ws hb hw hc _ ih =>
    unfold fields at ih ⊢
    rw [List.append_assoc, fieldsAux_blank hb, fieldsAux_word hw.2]
    simp [fieldsAux, hc, hw.1, ih]

theorem blank_cons {c : Char} {b : List Char} (hs : isSpace c = true) (hb : Blank b) : Blank (c :: b) := by
  intro x hx
  simp at hx
  rcases hx with rfl | hx
  · exact hs
  · exact hb x hx

theorem words_aux (s : List Char) : ∀ cur : List Char, (∀ c ∈ cur, isSpace c = false) →
    if cur = [] then Words s (fieldsAux [] s) else Words (cur.reverse ++ s) (fieldsAux cur s) := by
  induction s with
  | nil =>
    intro cur hc
    by_cases h : cur = []
    · subst h; simp only [if_true, fieldsAux]; exact .none (by intro c hc; cases hc)
    · simp only [h, if_false, fieldsAux, List.append_nil]
      exact .last (b := []) (by intro c hc; cases hc) ⟨by simpa using h, by simpa using hc⟩
  | cons c s ih =>
    intro cur hc
    by_cases h : cur = []
    · subst h
      simp only [if_true]
      by_cases hs : isSpace c = true
      · simp only [fieldsAux, hs, if_true]
        have := ih [] (by intro c hc; cases hc)
        simp only [if_true] at this
        generalize fieldsAux [] s = ws at this
        have hb0 : Blank [c] := by intro x hx; simp at hx; subst hx; exact hs
        cases this with
        | none hb => exact .none (b := c :: s) (blank_cons hs hb)
        | @last b w hb hw =>
          exact .last (b := c :: b) (blank_cons hs hb) hw
        | @more b w s' c' ws' hb hw hc' hr =>
          exact .more (b := c :: b) (blank_cons hs hb) hw hc' hr
      · simp only [fieldsAux, hs]
        have := ih [c] (by intro x hx; simp at hx; subst hx; simpa using hs)
        simpa using this
    · simp only [h, if_false]
      by_cases hs : isSpace c = true
      · simp only [fieldsAux, hs, if_true, h, if_false]
        have := ih [] (by intro c hc; cases hc)
        simp only [if_true] at this
        exact .more (b := []) (w := cur.reverse) (by intro c hc; cases hc) ⟨by simpa using h, by simpa using hc⟩ hs this
      · simp only [fieldsAux, hs]
        have := ih (c :: cur) (by
          intro x hx; simp at hx; rcases hx with rfl | hx
          · simpa using hs
          · exact hc x hx)
        simpa using this

theorem words_fields (s : List Char) : Words s (fields s) := by
  have := words_aux s [] (by intro c hc; cases hc)
  simpa [fields] using this

/-- The pieces of a comma-separated list: no piece contains a comma and joining them with commas gives the list. -/
def joinComma : List (List Char) → List Char
  | [] => []
  | [w] => w
  | w :: ws => w ++ ',' :: joinComma ws

def CommaList (s : List Char) (ps : List (List Char)) : Prop :=
  ps ≠ [] ∧ (∀ p ∈ ps, ',' ∉ p) ∧ joinComma ps = s

theorem splitCommaAux_ne (cur s : List Char) : splitCommaAux cur s ≠ [] := by
  induction s generalizing cur with
  | nil => simp [splitCommaAux]
  | cons c s ih => unfold splitCommaAux; split <;> simp [ih]

theorem joinComma_cons {w : List Char} {ws : List (List Char)} (h : ws ≠ []) :
    joinComma (w :: ws) = w ++ ',' :: joinComma ws := by
  cases ws with
  | nil => exact absurd rfl h
  | cons a l => rfl

theorem splitCommaAux_spec (s : List Char) : ∀ cur : List Char, ',' ∉ cur →
    CommaList (cur.reverse ++ s) (splitCommaAux cur s) := by
  induction s with
  | nil => intro cur hc; exact ⟨by simp [splitCommaAux], by simpa [splitCommaAux] using hc, by simp [splitCommaAux, joinComma]⟩
  | cons c s ih =>
    intro cur hc
    by_cases h : c = ','
    · subst h
      obtain ⟨h1, h2, h3⟩ := ih [] (by simp)
      refine ⟨by simp [splitCommaAux], ?_, ?_⟩
      · intro p hp
        simp only [splitCommaAux, if_true, List.mem_cons] at hp
        rcases hp with rfl | hp
        · simpa using hc
        · exact h2 p hp
      · simp only [splitCommaAux, if_true]
        rw [joinComma_cons h1, h3]; simp
    · have := ih (c :: cur) (by simp [Ne.symm h, hc])
      simp only [splitCommaAux, h, if_false]
      simpa using this

/-- How one word of the search string is read. -/
inductive Reads : List Char → List (List Char) → List (List Char) → Prop
  /-- `tag:x` is the tag x -/
  | tag (x : List Char) : Reads ("tag:".toList ++ x) [] [x]
  /-- `tags:x,y` are the tags x and y -/
  | tags {x : List Char} {ps : List (List Char)} : CommaList x ps → Reads ("tags:".toList ++ x) [] ps
  /-- any other word is a term -/
  | term {w : List Char} : (¬ ∃ x, w = "tag:".toList ++ x) → (¬ ∃ x, w = "tags:".toList ++ x) → Reads w [w] []

theorem dropPrefix_iff (p s x : List Char) : dropPrefix? p s = some x ↔ s = p ++ x := by
  induction p generalizing s with
  | nil => simp [dropPrefix?, eq_comm]
  | cons a p ih =>
    cases s with
    | nil => simp [dropPrefix?]
    | cons c s =>
      unfold dropPrefix?
      by_cases h : a = c
      · subst h; simp [ih]
      · simp [h, Ne.symm h]

theorem classify_reads (w : List Char) : Reads w (classify w).1 (classify w).2 := by
  unfold classify
  cases h1 : dropPrefix? "tag:".toList w with
  | some x => rw [(dropPrefix_iff _ _ _).1 h1]; exact .tag x
  | none =>
    cases h2 : dropPrefix? "tags:".toList w with
    | some x =>
      rw [(dropPrefix_iff _ _ _).1 h2]
      exact .tags (by simpa [splitComma] using splitCommaAux_spec x [] (by simp))
    | none =>
      refine .term ?_ ?_
      · rintro ⟨x, hx⟩; rw [(dropPrefix_iff _ _ _).2 hx] at h1; cases h1
      · rintro ⟨x, hx⟩; rw [(dropPrefix_iff _ _ _).2 hx] at h2; cases h2

/-- All words of a search string, read one by one: the free-text terms and the tags. -/
inductive ReadsAll : List (List Char) → List (List Char) → List (List Char) → Prop
  | nil : ReadsAll [] [] []
  | cons {w : List Char} {ws a b as bs : List (List Char)} :
      Reads w a b → ReadsAll ws as bs → ReadsAll (w :: ws) (a ++ as) (b ++ bs)

/-- The terms separated by single spaces. -/
def Spaced (ts : List (List Char)) : List Char := (ts.intersperse [' ']).flatten

theorem joinSpace_spaced (ts : List (List Char)) : joinSpace ts = Spaced ts := by
  unfold Spaced
  match ts with
  | [] => rfl
  | [w] => simp [joinSpace]
  | a :: b :: ts =>
    have := joinSpace_spaced (b :: ts)
    unfold Spaced at this
    simp only [joinSpace, this, List.intersperse, List.flatten_cons]
    simp

/-- **C49.** The search string is split into its words, each word is read as a tag, a list of tags or a term;
the query text is the terms in order separated by single spaces, the tags are the tags in order. -/
theorem C49_parse (q : List Char) :
    ∃ ws terms, Words q ws ∧ ReadsAll ws terms (parseQuery q).2 ∧ (parseQuery q).1 = Spaced terms := by
  refine ⟨fields q, (fields q).flatMap fun w => (classify w).1, words_fields q, ?_, joinSpace_spaced _⟩
  simp only [parseQuery]
  generalize fields q = ws
  induction ws with
  | nil => exact .nil
  | cons w ws ih => exact .cons (classify_reads w) ih

/-- The decomposition into words is unique: the words are determined by the string alone. -/
theorem C49_words_unique {s : List Char} {ws ws' : List (List Char)} (h : Words s ws) (h' : Words s ws') :
    ws = ws' := (fields_of_words h).symm.trans (fields_of_words h')

theorem fields_words_mem {s : List Char} {ws : List (List Char)} (h : Words s ws) : ∀ w ∈ ws, Word w := by
  induction h with
  | none _ => intro w hw; cases hw
  | last _ hw => intro x hx; simp at hx; subst hx; exact hw
  | more _ hw _ _ ih => 
    intro x hx
    rcases List.mem_cons.1 hx with h | h
    · rw [h]; exact hw
    · exact ih x h

theorem words_spaced : (ts : List (List Char)) → (∀ w ∈ ts, Word w) → Words (Spaced ts) ts
  | [], _ => .none (by intro c hc; cases hc)
  | [w], h => by
    have := Words.last (b := []) (w := w) (by intro c hc; cases hc) (h w (by simp))
    simpa [Spaced] using this
  | a :: b :: ts, h => by
    have ih := words_spaced (b :: ts) (fun w hw => h w (by simp [hw]))
    have := Words.more (b := []) (w := a) (c := ' ') (by intro c hc; cases hc) (h a (by simp)) (by decide) ih
    unfold Spaced at this ⊢
    simpa [List.intersperse] using this

theorem reads_terms {w : List Char} {a b : List (List Char)} (h : Reads w a b) : ∀ x ∈ a, x = w := by
  cases h with
  | tag _ => intro x hx; cases hx
  | tags _ => intro x hx; cases hx
  | term _ _ => intro x hx; simpa using hx

theorem readsAll_terms {ws a b : List (List Char)} (h : ReadsAll ws a b) : ∀ x ∈ a, x ∈ ws := by
  induction h with
  | nil => intro x hx; cases hx
  | cons hr _ ih =>
    intro x hx
    rcases List.mem_append.1 hx with hx | hx
    · rw [reads_terms hr x hx]; exact List.mem_cons_self
    · exact List.mem_cons_of_mem _ (ih x hx)

/-- No term is lost: the words of the query text are exactly the words of the search string that are not tags,
in order. -/
theorem C49_no_term_lost (q : List Char) :
    ∃ ws terms, Words q ws ∧ ReadsAll ws terms (parseQuery q).2 ∧ Words (parseQuery q).1 terms := by
  obtain ⟨ws, terms, h1, h2, h3⟩ := C49_parse q
  refine ⟨ws, terms, h1, h2, ?_⟩
  rw [h3]
  exact words_spaced terms fun w hw => fields_words_mem h1 w (readsAll_terms h2 w hw)

/-- A concrete case: terms and both kinds of tags, with irregular spacing. -/
example : parseQuery "  hello tag:a  tags:b,c world tagx".toList =
    ("hello world tagx".toList, ["a".toList, "b".toList, "c".toList]) := by decide +kernel

end Tork
