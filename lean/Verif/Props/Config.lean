import Verif.Config
/-!
# C71 — Configuration: environment variables override the first file that exists
-/

namespace Tork.Conf

/-! ## Specification -/

/-- The variables that concern the configuration. -/
def Environ.vars (env : Environ) : Environ := env.filter fun x => pfx.isPrefixOf x.1 && envKey x.1 ≠ []

/-- The path a variable sets. -/
def varPath (name : List Char) : Path := splitDots (envKey name)

/-- No variable sets a path that leads to what another variable sets. -/
def Unambiguous (env : Environ) : Prop := ∀ x ∈ env.vars, ∀ y ∈ env.vars, varPath x.1 <+: varPath y.1 → varPath x.1 = varPath y.1

/-- The last variable that sets path `p`. -/
def setBy (env : Environ) (p : Path) : Option (List Char) :=
  ((env.vars.filter fun x => varPath x.1 = p).getLast?).map Prod.snd

/-! ## Trees -/

theorem at_nil (t : Tree) : t.at [] = t := by cases t <;> rfl
theorem at_absent (p : Path) : Tree.absent.at p = .absent := by cases p <;> rfl
theorem at_leaf {v : Val} {p : Path} (h : p ≠ []) : (Tree.leaf v).at p = .absent := by
  cases p with
  | nil => exact absurd rfl h
  | cons => rfl

theorem at_append (t : Tree) (p q : Path) : t.at (p ++ q) = (t.at p).at q := by
  induction p generalizing t with
  | nil => rw [List.nil_append, at_nil]
  | cons k p ih =>
    cases t with
    | absent => rw [at_absent, at_absent, at_absent]
    | leaf v =>
      show Tree.absent = Tree.absent.at q
      rw [at_absent]
    | table f => exact ih (f k)

theorem merge_leaf {a b : Tree} {p : Path} {v : Val} (h : a.at p = .leaf v) : (merge a b).at p = .leaf v := by
  induction p generalizing a b with
  | nil =>
    rw [at_nil] at h
    subst h
    exact at_nil _
  | cons k p ih =>
    cases a with
    | absent => rw [at_absent] at h; cases h
    | leaf w => cases h
    | table f =>
      have h : (f k).at p = .leaf v := h
      cases b with
      | absent => exact h
      | leaf w => exact h
      | table g => exact ih h

/-- What `a` says nothing about is left as it is. -/
theorem merge_absent {a b : Tree} {p : Path} (h : a.at p = .absent) (hp : ∀ q v, q <+: p → a.at q ≠ .leaf v) : (merge a b).at p = b.at p := by
  induction p generalizing a b with
  | nil =>
    rw [at_nil] at h
    subst h; rfl
  | cons k p ih =>
    cases a with
    | absent => rfl
    | leaf w => exact absurd (at_nil _) (hp [] w (List.nil_prefix))
    | table f =>
      have h : (f k).at p = .absent := h
      have hp' : ∀ q v, q <+: p → (f k).at q ≠ .leaf v := fun q v hq => hp (k :: q) v ((List.prefix_cons_inj k).2 hq)
      cases b with
      | absent => show (f k).at p = _; rw [h, at_absent]
      | leaf w => show (f k).at p = _; rw [h]; rfl
      | table g => exact ih h hp'

/-- A table of `a` is a table of the result, and its keys are those of both. -/
theorem merge_table {f : Key → Tree} {a b : Tree} {p : Path} (h : a.at p = .table f) :
    (merge a b).at p = match b.at p with
      | .table g => .table fun k => merge (f k) (g k)
      | _ => .table f := by
  induction p generalizing a b with
  | nil =>
    rw [at_nil] at h
    subst h
    cases b <;> rfl
  | cons k p ih =>
    cases a with
    | absent => rw [at_absent] at h; cases h
    | leaf w => cases h
    | table f' =>
      have h : (f' k).at p = .table f := h
      cases b with
      | absent => show (f' k).at p = _; rw [h, at_absent]
      | leaf w => exact h
      | table g => exact ih h

theorem splitDots_ne (s : List Char) : splitDots s ≠ [] := by
  cases s with
  | nil => simp [splitDots]
  | cons c s =>
    unfold splitDots
    split
    · simp
    · split <;> simp

/-- One step of unflattening, where no scalar is in the way. -/
theorem plant_at {p : Path} (hne : p ≠ []) {v : Val} {f : Key → Tree} (hw : ∀ q w, q <+: p → q ≠ p → (Tree.table f).at q ≠ .leaf w) (q : Path) :
    (q = p → (Tree.table (plant p v f)).at q = .leaf v) ∧
    (q <+: p → q ≠ p → ∃ g, (Tree.table (plant p v f)).at q = .table g) ∧
    (p <+: q → q ≠ p → (Tree.table (plant p v f)).at q = .absent) ∧
    (¬ q <+: p → ¬ p <+: q → (Tree.table (plant p v f)).at q = (Tree.table f).at q) := by
  induction p generalizing f q with
  | nil => exact absurd rfl hne
  | cons k p ih =>
    cases q with
    | nil =>
      refine ⟨fun h => (by cases h), fun _ _ => ⟨_, rfl⟩, fun h => ?_, fun h => absurd List.nil_prefix h⟩
      have := List.prefix_nil.1 h
      cases this
    | cons x q =>
      by_cases hp : p = []
      · subst hp
        have hpl : ∀ x, (plant [k] v f) x = if x = k then .leaf v else f x := fun x => rfl
        have hat : (Tree.table (plant [k] v f)).at (x :: q) = (if x = k then Tree.leaf v else f x).at q := rfl
        rw [hat]
        refine ⟨fun h => ?_, fun h h' => ?_, fun h h' => ?_, fun h h' => ?_⟩
        · cases h; rw [if_pos rfl]; rfl
        · obtain ⟨h1, h2⟩ := List.cons_prefix_cons.1 h
          rw [h1, List.prefix_nil.1 h2] at h'
          exact absurd rfl h'
        · obtain ⟨h1, h2⟩ := List.cons_prefix_cons.1 h
          rw [if_pos h1.symm]
          exact at_leaf fun hq => h' (by rw [hq, h1])
        · rw [if_neg fun hx => h' (List.cons_prefix_cons.2 ⟨hx.symm, List.nil_prefix⟩)]
          rfl
      · have hg : ∃ g, plant (k :: p) v f = upd f k (.table (plant p v g)) ∧ (f k = .table g ∨ f k = .absent ∧ g = fun _ => .absent) := by
          cases p with
          | nil => exact absurd rfl hp
          | cons k2 p2 =>
            cases hf : f k with
            | absent => exact ⟨fun _ => .absent, by rw [plant, hf]; simp, .inr ⟨rfl, rfl⟩⟩
            | table g => exact ⟨g, by rw [plant, hf]; simp, .inl rfl⟩
            | leaf w =>
              refine absurd ?_ (hw [k] w (List.cons_prefix_cons.2 ⟨rfl, List.nil_prefix⟩) (by simp))
              show (f k).at [] = _
              rw [at_nil, hf]
        obtain ⟨g, hg1, hg2⟩ := hg
        have hgat : ∀ q', q' ≠ [] → (Tree.table g).at q' = (f k).at q' := fun q' hq' => by
          rcases hg2 with h | ⟨h, h'⟩
          · rw [h]
          · rw [h, h', at_absent]
            cases q' with
            | nil => exact absurd rfl hq'
            | cons a b => exact at_absent b
        have hw' : ∀ q w, q <+: p → q ≠ p → (Tree.table g).at q ≠ .leaf w := fun q w h1 h2 => by
          by_cases hq : q = []
          · subst hq; intro h; cases h
          · rw [hgat q hq]
            exact hw (k :: q) w (List.cons_prefix_cons.2 ⟨rfl, h1⟩) (fun h => h2 (by cases h; rfl))
        obtain ⟨i1, i2, i3, i4⟩ := ih hp hw' q
        have hat : (Tree.table (plant (k :: p) v f)).at (x :: q) = (if x = k then Tree.table (plant p v g) else f x).at q := by
          rw [hg1]; rfl
        rw [hat]
        by_cases hx : x = k
        · subst hx
          rw [if_pos rfl]
          refine ⟨fun h => i1 (by cases h; rfl), fun h h' => i2 (List.cons_prefix_cons.1 h).2 (fun e => h' (by rw [e])),
            fun h h' => i3 (List.cons_prefix_cons.1 h).2 (fun e => h' (by rw [e])), fun h h' => ?_⟩
          rw [i4 (fun e => h (List.cons_prefix_cons.2 ⟨rfl, e⟩)) (fun e => h' (List.cons_prefix_cons.2 ⟨rfl, e⟩))]
          exact hgat q fun e => h (List.cons_prefix_cons.2 ⟨rfl, by rw [e]; exact List.nil_prefix⟩)
        · rw [if_neg hx]
          exact ⟨fun h => absurd (by cases h; rfl) hx, fun h => absurd (List.cons_prefix_cons.1 h).1 hx,
            fun h => absurd (List.cons_prefix_cons.1 h).1.symm hx, fun _ _ => rfl⟩

/-- The tree of a set of entries: their values at their paths, and tables on the way there, nothing else. -/
structure Grown (l : List (List Char × List Char)) (t : Tree) : Prop where
  leaf : ∀ q v, t.at q = .leaf v ↔ ∃ x ∈ l, splitDots x.1 = q ∧ v = .text x.2
  table : ∀ q g, q ≠ [] → t.at q = .table g → ∃ x ∈ l, q <+: splitDots x.1 ∧ q ≠ splitDots x.1

theorem grown_plant {l : List (List Char × List Char)} {x : List Char × List Char} {f : Key → Tree} (hg : Grown l (.table f))
    (hx : ∀ y ∈ l, splitDots x.1 <+: splitDots y.1 ∨ splitDots y.1 <+: splitDots x.1 → y = x) :
    Grown (l ++ [x]) (.table (plant (splitDots x.1) (.text x.2) f)) := by
  have hmem : ∀ {y}, y ∈ l ++ [x] → splitDots x.1 <+: splitDots y.1 ∨ splitDots y.1 <+: splitDots x.1 → y = x := fun {y} hy h => by
    rcases List.mem_append.1 hy with hy | hy
    · exact hx y hy h
    · exact List.mem_singleton.1 hy
  have hxin : x ∈ l ++ [x] := List.mem_append_right _ (List.mem_singleton_self _)
  have hpl := plant_at (splitDots_ne x.1) (v := .text x.2) (f := f) fun q w h1 h2 h => by
    obtain ⟨y, hy, h3, _⟩ := (hg.leaf q w).1 h
    have := hx y hy (.inr (by rw [h3]; exact h1))
    exact h2 (by rw [← h3, this])
  constructor
  · intro q v
    obtain ⟨i1, i2, i3, i4⟩ := hpl q
    by_cases he : q = splitDots x.1
    · rw [i1 he]
      constructor
      · intro h; exact ⟨x, hxin, he.symm, (by cases h; rfl)⟩
      · rintro ⟨y, hy, h1, h2⟩
        rw [h2, hmem hy (.inl (by rw [h1, he]; exact List.prefix_refl _))]
    · by_cases hp : q <+: splitDots x.1
      · obtain ⟨g, hgq⟩ := i2 hp he
        rw [hgq]
        refine ⟨fun h => (by cases h), ?_⟩
        rintro ⟨y, hy, h1, h2⟩
        exact absurd (by rw [← h1, hmem hy (.inr (by rw [h1]; exact hp))]) he
      · by_cases hp' : splitDots x.1 <+: q
        · rw [i3 hp' he]
          refine ⟨fun h => (by cases h), ?_⟩
          rintro ⟨y, hy, h1, h2⟩
          exact absurd (by rw [← h1, hmem hy (.inl (by rw [h1]; exact hp'))]) he
        · rw [i4 hp hp', hg.leaf]
          constructor
          · rintro ⟨y, hy, h⟩; exact ⟨y, List.mem_append_left _ hy, h⟩
          · rintro ⟨y, hy, h⟩
            rcases List.mem_append.1 hy with hy | hy
            · exact ⟨y, hy, h⟩
            · rw [List.mem_singleton.1 hy] at h; exact absurd h.1.symm he
  · intro q g hq h
    obtain ⟨i1, i2, i3, i4⟩ := hpl q
    by_cases he : q = splitDots x.1
    · rw [i1 he] at h; cases h
    · by_cases hp : q <+: splitDots x.1
      · exact ⟨x, hxin, hp, he⟩
      · by_cases hp' : splitDots x.1 <+: q
        · rw [i3 hp' he] at h; cases h
        · rw [i4 hp hp'] at h
          obtain ⟨y, hy, h⟩ := hg.table q g hq h
          exact ⟨y, List.mem_append_left _ hy, h⟩

/-- Unflattening entries none of whose paths leads to another one. -/
theorem unflatten_grown {l : List (List Char × List Char)} (hl : ∀ x ∈ l, ∀ y ∈ l, splitDots x.1 <+: splitDots y.1 → x = y) :
    Grown l (unflatten l) := by
  have K : ∀ (r l0 : List (List Char × List Char)) (f : Key → Tree), (∀ x ∈ l0 ++ r, ∀ y ∈ l0 ++ r, splitDots x.1 <+: splitDots y.1 → x = y) →
      Grown l0 (.table f) → Grown (l0 ++ r) (.table (r.foldl (fun f x => plant (splitDots x.1) (.text x.2) f) f)) := fun r => by
    induction r with
    | nil => intro l0 f _ h; rw [List.append_nil]; exact h
    | cons x r ih =>
      intro l0 f hl hg
      have := ih (l0 ++ [x]) _ (by rw [List.append_assoc]; exact hl) (grown_plant (x := x) hg fun y hy h => ?_)
      · rw [List.append_assoc] at this; exact this
      · have hx : x ∈ l0 ++ x :: r := List.mem_append_right _ List.mem_cons_self
        have hy : y ∈ l0 ++ x :: r := List.mem_append_left _ hy
        rcases h with h | h
        · exact (hl x hx y hy h).symm
        · exact hl y hy x hx h
  have := K l [] (fun _ => .absent) hl ⟨fun q v => ⟨fun h => ?_, ?_⟩, fun q g hq h => ?_⟩
  · exact this
  · cases q with
    | nil => cases h
    | cons a b => rw [show (Tree.table fun _ => Tree.absent).at (a :: b) = Tree.absent.at b from rfl, at_absent] at h; cases h
  · rintro ⟨y, hy, _⟩; cases hy
  · cases q with
    | nil => exact absurd rfl hq
    | cons a b => rw [show (Tree.table fun _ => Tree.absent).at (a :: b) = Tree.absent.at b from rfl, at_absent] at h; cases h

/-! ## Splitting and joining -/

/-- The words of `l` with `c` between them. -/
def joinWith (c : Char) : List (List Char) → List Char
  | [] => []
  | [w] => w
  | w :: ws => w ++ c :: joinWith c ws

theorem join_cons {c : Char} {w : List Char} {ws : List (List Char)} (h : ws ≠ []) : joinWith c (w :: ws) = w ++ c :: joinWith c ws := by
  cases ws with
  | nil => exact absurd rfl h
  | cons a b => rfl

theorem join_split (s : List Char) : joinWith '.' (splitDots s) = s := by
  induction s with
  | nil => rfl
  | cons c s ih =>
    unfold splitDots
    split
    · rename_i h
      rw [join_cons (splitDots_ne s), ih, h]; rfl
    · cases hs : splitDots s with
      | nil => exact absurd hs (splitDots_ne s)
      | cons w ws =>
        rw [hs] at ih
        dsimp only
        cases ws with
        | nil =>
          show c :: w = _
          rw [show joinWith '.' [w] = w from rfl] at ih; rw [ih]
        | cons a b =>
          rw [join_cons (by simp)] at ih ⊢
          rw [List.cons_append, ih]

theorem splitDots_inj {s t : List Char} (h : splitDots s = splitDots t) : s = t := by
  rw [← join_split s, h, join_split]

theorem split_word {w : List Char} (h : '.' ∉ w) : splitDots w = [w] := by
  induction w with
  | nil => rfl
  | cons c w ih =>
    unfold splitDots
    rw [if_neg fun e => h (by rw [e]; exact List.mem_cons_self), ih fun e => h (List.mem_cons_of_mem _ e)]

theorem split_append {w s : List Char} (h : '.' ∉ w) : splitDots (w ++ '.' :: s) = w :: splitDots s := by
  induction w with
  | nil =>
    show splitDots ('.' :: s) = _
    rw [splitDots, if_pos rfl]
  | cons c w ih =>
    show splitDots (c :: (w ++ '.' :: s)) = _
    rw [splitDots, if_neg fun e => h (by rw [e]; exact List.mem_cons_self), ih fun e => h (List.mem_cons_of_mem _ e)]

theorem split_join {p : Path} (hp : p ≠ []) (h : ∀ k ∈ p, '.' ∉ k) : splitDots (joinWith '.' p) = p := by
  induction p with
  | nil => exact absurd rfl hp
  | cons k p ih =>
    have hk := h k List.mem_cons_self
    by_cases hp' : p = []
    · subst hp'; exact split_word hk
    · rw [join_cons hp', split_append hk, ih hp' fun x hx => h x (List.mem_cons_of_mem _ hx)]

/-! ## The variables -/

def lookup (m : List (List Char × List Char)) (k : List Char) : Option (List Char) := (m.find? fun x => decide (x.1 = k)).map Prod.snd

theorem lookup_put (m : List (List Char × List Char)) (k v k' : List Char) : lookup (put m k v) k' = if k' = k then some v else lookup m k' := by
  induction m with
  | nil =>
    unfold put lookup
    by_cases h : k' = k
    · rw [if_pos h]; simp [h]
    · rw [if_neg h]; simp [show ¬ k = k' from fun e => h e.symm]
  | cons x m ih =>
    obtain ⟨a, b⟩ := x
    unfold put
    by_cases ha : a = k
    · rw [if_pos ha]
      by_cases h : k' = k
      · rw [if_pos h]; unfold lookup; simp [h]
      · rw [if_neg h]; unfold lookup; simp [show ¬ k = k' from fun e => h e.symm, show ¬ a = k' from fun e => h (by rw [← e, ha])]
    · rw [if_neg ha]
      by_cases hk : a = k'
      · rw [if_neg fun e => ha (by rw [hk, e])]; unfold lookup; simp [hk]
      · have h1 : ∀ m, lookup ((a, b) :: m) k' = lookup m k' := fun m => by unfold lookup; simp [hk]
        rw [h1, h1, ih]

theorem keys_put {m : List (List Char × List Char)} {k v k' : List Char} (h : k' ∈ (put m k v).map Prod.fst) : k' = k ∨ k' ∈ m.map Prod.fst := by
  induction m with
  | nil => exact .inl (by simpa [put] using h)
  | cons x m ih =>
    obtain ⟨a, b⟩ := x
    unfold put at h
    by_cases ha : a = k
    · rw [if_pos ha] at h
      rcases List.mem_cons.1 h with h | h
      · exact .inl h
      · exact .inr (List.mem_cons_of_mem _ h)
    · rw [if_neg ha] at h
      rcases List.mem_cons.1 h with h | h
      · exact .inr (by rw [h]; exact List.mem_cons_self)
      · exact (ih h).imp id (List.mem_cons_of_mem _)

theorem nodup_put {m : List (List Char × List Char)} (k v : List Char) (h : (m.map Prod.fst).Nodup) : ((put m k v).map Prod.fst).Nodup := by
  induction m with
  | nil => simp [put]
  | cons x m ih =>
    obtain ⟨a, b⟩ := x
    obtain ⟨h1, h2⟩ := List.nodup_cons.1 h
    unfold put
    by_cases ha : a = k
    · rw [if_pos ha]
      exact List.nodup_cons.2 ⟨by rw [← ha]; exact h1, h2⟩
    · rw [if_neg ha]
      exact List.nodup_cons.2 ⟨fun hm => (keys_put hm).elim ha h1, ih h2⟩

theorem lookup_mem {m : List (List Char × List Char)} (h : (m.map Prod.fst).Nodup) (k v : List Char) : lookup m k = some v ↔ (k, v) ∈ m := by
  induction m with
  | nil => simp [lookup]
  | cons x m ih =>
    obtain ⟨a, b⟩ := x
    obtain ⟨h1, h2⟩ := List.nodup_cons.1 h
    by_cases ha : a = k
    · have : lookup ((a, b) :: m) k = some b := by unfold lookup; simp [ha]
      rw [this]
      subst ha
      constructor
      · intro h; cases h; exact List.mem_cons_self
      · intro h
        rcases List.mem_cons.1 h with h | h
        · cases h; rfl
        · exact absurd (List.mem_map_of_mem (f := Prod.fst) h) h1
    · have : lookup ((a, b) :: m) k = lookup m k := by unfold lookup; simp [ha]
      rw [this, ih h2]
      constructor
      · exact List.mem_cons_of_mem _
      · intro h
        rcases List.mem_cons.1 h with h | h
        · cases h; exact absurd rfl ha
        · exact h

theorem flat_eq (env : Environ) : flat env = env.vars.foldl (fun m x => put m (envKey x.1) x.2) [] := by
  unfold flat Environ.vars
  generalize ([] : List (List Char × List Char)) = m
  induction env generalizing m with
  | nil => rfl
  | cons x env ih =>
    rw [List.foldl_cons, List.filter_cons, ih]
    split <;> rfl

theorem flat_nodup (env : Environ) : ((flat env).map Prod.fst).Nodup := by
  rw [flat_eq]
  have K : ∀ (l m : List (List Char × List Char)), (m.map Prod.fst).Nodup → ((l.foldl (fun m x => put m (envKey x.1) x.2) m).map Prod.fst).Nodup := fun l => by
    induction l with
    | nil => exact fun m h => h
    | cons x l ih => exact fun m h => ih _ (nodup_put _ _ h)
  exact K _ [] List.nodup_nil

theorem getLast?_cons_some {α : Type} (a : α) (l : List α) : (a :: l).getLast? = some (l.getLast?.getD a) := by
  cases l with
  | nil => rfl
  | cons b l => simp [List.getLast?_cons]

theorem lookup_flat (env : Environ) (k : List Char) : lookup (flat env) k = ((env.vars.filter fun x => envKey x.1 = k).getLast?).map Prod.snd := by
  rw [flat_eq]
  have K : ∀ (l m : List (List Char × List Char)), lookup (l.foldl (fun m x => put m (envKey x.1) x.2) m) k =
      ((l.filter fun x => envKey x.1 = k).getLast?.map Prod.snd).or (lookup m k) := fun l => by
    induction l with
    | nil => intro m; simp
    | cons x l ih =>
      intro m
      rw [List.foldl_cons, ih, List.filter_cons, lookup_put]
      by_cases h : envKey x.1 = k
      · rw [if_pos h.symm, if_pos (decide_eq_true h), getLast?_cons_some]
        cases (l.filter fun x => decide (envKey x.1 = k)).getLast? <;> rfl
      · rw [if_neg fun h' => h h'.symm, if_neg fun h' => h (of_decide_eq_true h')]
  rw [K]
  show Option.or _ none = _
  rw [Option.or_none]

theorem setBy_lookup (env : Environ) (k : List Char) : setBy env (splitDots k) = lookup (flat env) k := by
  rw [lookup_flat]
  unfold setBy varPath
  congr 2
  apply List.filter_congr
  intro x _
  exact decide_eq_decide.2 ⟨splitDots_inj, fun h => by rw [h]⟩

theorem setBy_path {env : Environ} {p : Path} {v : List Char} (h : setBy env p = some v) : ∃ k, p = splitDots k := by
  unfold setBy at h
  cases hl : (env.vars.filter fun x => decide (varPath x.1 = p)).getLast? with
  | none => rw [hl] at h; cases h
  | some x =>
    have := List.mem_of_getLast? hl
    exact ⟨envKey x.1, (of_decide_eq_true (List.mem_filter.1 this).2).symm⟩

theorem flat_var {env : Environ} {x : List Char × List Char} (h : x ∈ flat env) : ∃ y ∈ env.vars, envKey y.1 = x.1 := by
  rw [flat_eq] at h
  have K : ∀ (l m : List (List Char × List Char)) (k : List Char), k ∈ (l.foldl (fun m x => put m (envKey x.1) x.2) m).map Prod.fst →
      (∃ y ∈ l, envKey y.1 = k) ∨ k ∈ m.map Prod.fst := fun l => by
    induction l with
    | nil => exact fun m k h => .inr h
    | cons x l ih =>
      intro m k h
      rcases ih _ k h with ⟨y, hy, h⟩ | h
      · exact .inl ⟨y, List.mem_cons_of_mem _ hy, h⟩
      · rcases keys_put h with h | h
        · exact .inl ⟨x, List.mem_cons_self, h.symm⟩
        · exact .inr h
  rcases K _ [] x.1 (List.mem_map_of_mem h) with h | h
  · exact h
  · cases h

theorem perm_grown {env : Environ} (hu : Unambiguous env) {l : List (List Char × List Char)} (hl : l.Perm (flat env)) : Grown l (unflatten l) := by
  refine unflatten_grown fun x hx y hy h => ?_
  have hx := hl.mem_iff.1 hx
  have hy := hl.mem_iff.1 hy
  obtain ⟨x', hx', ex⟩ := flat_var hx
  obtain ⟨y', hy', ey⟩ := flat_var hy
  have hxy := hu x' hx' y' hy' (by unfold varPath; rw [ex, ey]; exact h)
  unfold varPath at hxy
  rw [ex, ey] at hxy
  have hk := splitDots_inj hxy
  obtain ⟨a, b⟩ := x
  obtain ⟨c, d⟩ := y
  cases (show a = c from hk)
  have h1 := (lookup_mem (flat_nodup env) a b).2 hx
  rw [(lookup_mem (flat_nodup env) a d).2 hy] at h1
  cases h1; rfl

theorem env_at {env : Environ} {t : Tree} (hu : Unambiguous env) (ht : EnvGives env t) (p : Path) :
    (∀ v, setBy env p = some v → t.at p = .leaf (.text v)) ∧
    (p ≠ [] → (∀ x ∈ env.vars, ¬ varPath x.1 <+: p ∧ ¬ p <+: varPath x.1) → t.at p = .absent ∧ ∀ q v, q <+: p → t.at q ≠ .leaf v) := by
  obtain ⟨l, hl, rfl⟩ := ht
  have hg := perm_grown hu hl
  constructor
  · intro v hv
    obtain ⟨k, rfl⟩ := setBy_path hv
    rw [setBy_lookup, lookup_mem (flat_nodup env)] at hv
    exact (hg.leaf _ _).2 ⟨_, hl.mem_iff.2 hv, rfl, rfl⟩
  · intro hp hno
    have hleaf : ∀ q v, q <+: p → (unflatten l).at q ≠ .leaf v := fun q v hq h => by
      obtain ⟨x, hx, h1, _⟩ := (hg.leaf q v).1 h
      obtain ⟨y, hy, hy'⟩ := flat_var (hl.mem_iff.1 hx)
      exact (hno y hy).1 (by unfold varPath; rw [hy', h1]; exact hq)
    refine ⟨?_, hleaf⟩
    cases h : (unflatten l).at p with
    | absent => rfl
    | leaf v => exact absurd h (hleaf p v (List.prefix_refl _))
    | table g =>
      obtain ⟨x, hx, h1, _⟩ := hg.table p g hp h
      obtain ⟨y, hy, hy'⟩ := flat_var (hl.mem_iff.1 hx)
      exact absurd (by unfold varPath; rw [hy']; exact h1) (hno y hy).2

theorem merge_empty (f : Key → Tree) : merge (.table f) .empty = .table f := by
  show Tree.table (fun k => merge (f k) .absent) = _
  congr 1
  funext k
  cases f k <;> rfl

/-! ## Files -/

theorem firstFile_ok {fs : String → FileResult} {ps : List String} {f : Key → Tree} : firstFile fs ps = .ok (some f) ↔
    ∃ a p b, ps = a ++ p :: b ∧ (∀ q ∈ a, fs q = .missing) ∧ fs p = .ok f := by
  induction ps with
  | nil =>
    refine ⟨fun h => (by cases h), ?_⟩
    rintro ⟨a, p, b, h, _⟩
    cases a <;> cases h
  | cons x ps ih =>
    unfold firstFile
    constructor
    · intro h
      split at h
      · rename_i hx
        obtain ⟨a, p, b, h1, h2, h3⟩ := ih.1 h
        refine ⟨x :: a, p, b, by rw [h1]; rfl, fun q hq => ?_, h3⟩
        rcases List.mem_cons.1 hq with rfl | hq
        · exact hx
        · exact h2 q hq
      · cases h
      · rename_i hx
        cases h
        exact ⟨[], x, ps, rfl, fun q hq => (by cases hq), hx⟩
    · rintro ⟨a, p, b, h1, h2, h3⟩
      cases a with
      | nil => cases h1; rw [h3]
      | cons y a =>
        cases h1
        rw [h2 _ List.mem_cons_self]
        exact ih.2 ⟨a, p, b, rfl, fun q hq => h2 q (List.mem_cons_of_mem _ hq), h3⟩

theorem firstFile_none {fs : String → FileResult} {ps : List String} : firstFile fs ps = .ok none ↔ ∀ p ∈ ps, fs p = .missing := by
  induction ps with
  | nil => exact ⟨fun _ p hp => (by cases hp), fun _ => rfl⟩
  | cons x ps ih =>
    unfold firstFile
    constructor
    · intro h
      split at h
      · rename_i hx
        intro p hp
        rcases List.mem_cons.1 hp with rfl | hp
        · exact hx
        · exact ih.1 h p hp
      · cases h
      · cases h
    · intro h
      rw [h x List.mem_cons_self]
      exact ih.2 fun p hp => h p (List.mem_cons_of_mem _ hp)

/-- The files looked for, in order. -/
def searched (env : Environ) : List String := if userConfig env ≠ "" then [userConfig env] else defaultPaths

/-- What the files give: the table of the first one that exists, if any. -/
def FilesGive (fs : String → FileResult) (env : Environ) (t : Tree) : Prop :=
  (∃ a p b f, searched env = a ++ p :: b ∧ (∀ q ∈ a, fs q = .missing) ∧ fs p = .ok f ∧ t = .table f) ∨
  ((∀ p ∈ searched env, fs p = .missing) ∧ userConfig env = "" ∧ t = .empty)

theorem load_inv {fs : String → FileResult} {env : Environ} {envT t : Tree} (h : loadConfig fs env envT .empty = .ok t) :
    ∃ f, FilesGive fs env f ∧ t = merge envT f := by
  unfold loadConfig at h
  split at h
  · cases h
  · rename_i hf
    by_cases hu : userConfig env ≠ ""
    · rw [if_pos hu] at h; cases h
    · rw [if_neg hu] at h; cases h
      exact ⟨_, .inr ⟨firstFile_none.1 hf, Classical.byContradiction hu, rfl⟩, rfl⟩
  · rename_i f hf
    cases h
    obtain ⟨a, p, b, h1, h2, h3⟩ := firstFile_ok.1 hf
    exact ⟨.table f, .inl ⟨a, p, b, f, h1, h2, h3, rfl⟩, by rw [merge_empty]⟩

/-! ## Theorems -/

/-- C71: a variable overrides the files. Whatever the files contain, whatever other variables there are (if none sets a path
that leads to what another one sets) and in whatever order the program meets them: if some variables set path `p`, the
configuration has the value of the last one at `p`. -/
theorem C71_variable_wins {fs : String → FileResult} {env : Environ} {envT t : Tree} (hu : Unambiguous env) (he : EnvGives env envT)
    (h : loadConfig fs env envT .empty = .ok t) {p : Path} {v : List Char} (hv : setBy env p = some v) : t.at p = .leaf (.text v) := by
  obtain ⟨f, _, rfl⟩ := load_inv h
  exact merge_leaf ((env_at hu he p).1 v hv)

/-- C71: where no variable has a say, the configuration is that of the first file that exists, and of no other file. -/
theorem C71_file_otherwise {fs : String → FileResult} {env : Environ} {envT t : Tree} (hu : Unambiguous env) (he : EnvGives env envT)
    (h : loadConfig fs env envT .empty = .ok t) {p : Path} (hp : p ≠ [])
    (hv : ∀ x ∈ env.vars, ¬ varPath x.1 <+: p ∧ ¬ p <+: varPath x.1) : ∃ f, FilesGive fs env f ∧ t.at p = f.at p := by
  obtain ⟨f, hf, rfl⟩ := load_inv h
  obtain ⟨h1, h2⟩ := (env_at hu he p).2 hp hv
  exact ⟨f, hf, merge_absent h1 h2⟩

/-- C71: loading fails exactly if the first file that exists cannot be read or parsed, or the file named by TORK_CONFIG does
not exist; the environment cannot make it fail. -/
theorem C71_failure (fs : String → FileResult) (env : Environ) (envT old : Tree) :
    (∃ e, loadConfig fs env envT old = .error e) ↔
      (∃ a p b e, searched env = a ++ p :: b ∧ (∀ q ∈ a, fs q = .missing) ∧ fs p = .broken e) ∨
      (userConfig env ≠ "" ∧ fs (userConfig env) = .missing) := by
  have key : ∀ ps, (∃ e, firstFile fs ps = .error e) ↔ ∃ a p b e, ps = a ++ p :: b ∧ (∀ q ∈ a, fs q = .missing) ∧ fs p = .broken e := fun ps => by
    induction ps with
    | nil =>
      refine ⟨fun ⟨e, h⟩ => (by cases h), ?_⟩
      rintro ⟨a, p, b, e, h, _⟩
      cases a <;> cases h
    | cons x ps ih =>
      unfold firstFile
      constructor
      · rintro ⟨e, h⟩
        split at h
        · rename_i hx
          obtain ⟨a, p, b, e', h1, h2, h3⟩ := ih.1 ⟨e, h⟩
          refine ⟨x :: a, p, b, e', by rw [h1]; rfl, fun q hq => ?_, h3⟩
          rcases List.mem_cons.1 hq with rfl | hq
          · exact hx
          · exact h2 q hq
        · rename_i e' hx
          exact ⟨[], x, ps, e', rfl, fun q hq => (by cases hq), hx⟩
        · cases h
      · rintro ⟨a, p, b, e, h1, h2, h3⟩
        cases a with
        | nil => cases h1; rw [h3]; exact ⟨_, rfl⟩
        | cons y a =>
          cases h1
          rw [h2 _ List.mem_cons_self]
          exact ih.2 ⟨a, p, b, e, rfl, fun q hq => h2 q (List.mem_cons_of_mem _ hq), h3⟩
  rw [← key]
  unfold loadConfig
  show (∃ e, (match firstFile fs (searched env) with
    | .error e => .error e
    | .ok none => if userConfig env ≠ "" then .error (.notFound (userConfig env)) else .ok (merge envT old)
    | .ok (some f) => .ok (merge envT (merge (.table f) old)) : Except Err Tree) = .error e) ↔ _
  cases hf : firstFile fs (searched env) with
  | error e => exact ⟨fun _ => .inl ⟨e, rfl⟩, fun _ => ⟨e, rfl⟩⟩
  | ok o =>
    cases o with
    | none =>
      dsimp only
      have hm := firstFile_none.1 hf
      by_cases hu : userConfig env ≠ ""
      · rw [if_pos hu]
        exact ⟨fun _ => .inr ⟨hu, hm _ (by unfold searched; rw [if_pos hu]; exact List.mem_singleton_self _)⟩, fun _ => ⟨_, rfl⟩⟩
      · rw [if_neg hu]
        exact ⟨fun ⟨e, h⟩ => (by cases h), fun h => h.elim (fun ⟨e, h⟩ => (by cases h)) fun h => absurd h.1 hu⟩
    | some f =>
      refine ⟨fun ⟨e, h⟩ => (by cases h), fun h => h.elim (fun ⟨e, h⟩ => (by cases h)) fun h => ?_⟩
      obtain ⟨a, p, b, h1, h2, h3⟩ := firstFile_ok.1 hf
      unfold searched at h1
      rw [if_pos h.1] at h1
      cases a with
      | nil => cases h1; rw [h.2] at h3; cases h3
      | cons y a => cases a <;> cases h1

/-! ### Which paths variables can set -/

/-- `TORK_` and the keys in upper case, joined by underscores. -/
def varName (p : Path) : List Char := pfx ++ joinWith '_' (p.map fun k => k.map Char.toUpper)

def Plain (c : Char) : Prop := 'a' ≤ c ∧ c ≤ 'z' ∨ '0' ≤ c ∧ c ≤ '9' ∨ c = '-'

theorem plain_char {c : Char} (h : Plain c) : keyChar c.toUpper = c ∧ c ≠ '.' := by
  have hn : c.toNat < 128 := by
    have : ∀ {a b : Char}, a ≤ b → a.toNat ≤ b.toNat := fun h => h
    rcases h with h | h | h
    · have := this h.2; exact Nat.lt_of_le_of_lt this (by decide)
    · have := this h.2; exact Nat.lt_of_le_of_lt this (by decide)
    · rw [h]; decide
  have key : ∀ n : Fin 128, ('a' ≤ Char.ofNat n ∧ Char.ofNat n ≤ 'z' ∨ '0' ≤ Char.ofNat n ∧ Char.ofNat n ≤ '9' ∨ Char.ofNat n = '-') →
      keyChar (Char.ofNat n).toUpper = Char.ofNat n ∧ Char.ofNat n ≠ '.' := by decide +kernel
  have := key ⟨c.toNat, hn⟩
  simp only [Char.ofNat_toNat] at this
  exact this h

/-- C71: every path of keys made of lower-case letters, digits and hyphens is set by the variable of that name. -/
theorem C71_every_plain_path {p : Path} (hp : p ≠ []) (hc : ∀ k ∈ p, ∀ c ∈ k, Plain c) : varPath (varName p) = p := by
  have hpre : pfx.isPrefixOf (varName p) = true := by
    rw [List.isPrefixOf_iff_prefix]; exact List.prefix_append _ _
  unfold varPath envKey
  rw [if_pos hpre]
  have hdrop : (varName p).drop pfx.length = joinWith '_' (p.map fun k => k.map Char.toUpper) := by
    unfold varName; exact List.drop_left
  rw [hdrop]
  have hj : ∀ p : Path, (∀ k ∈ p, ∀ c ∈ k, Plain c) → (joinWith '_' (p.map fun k => k.map Char.toUpper)).map keyChar = joinWith '.' p := fun p hc => by
    have hk : ∀ k : Key, (∀ c ∈ k, Plain c) → (k.map Char.toUpper).map keyChar = k := fun k hk => by
      rw [List.map_map]
      exact (List.map_congr_left fun c hc => (plain_char (hk c hc)).1).trans (List.map_id k)
    induction p with
    | nil => rfl
    | cons k p ih =>
      have h1 := hk k (hc k List.mem_cons_self)
      have ih := ih fun x hx => hc x (List.mem_cons_of_mem _ hx)
      by_cases hp : p = []
      · subst hp; exact h1
      · rw [List.map_cons, join_cons (by simpa using hp), join_cons hp, List.map_append, List.map_cons, h1, ih]
        rfl
  rw [hj p hc]
  exact split_join hp fun k hk hd => (plain_char (hc k hk _ hd)).2 rfl

theorem mem_splitDots {s : List Char} {k : Key} {c : Char} (hk : k ∈ splitDots s) (hc : c ∈ k) : c ∈ s := by
  induction s generalizing k with
  | nil => simp [splitDots] at hk; rw [hk] at hc; cases hc
  | cons x s ih =>
    unfold splitDots at hk
    split at hk
    · rcases List.mem_cons.1 hk with rfl | hk
      · cases hc
      · exact List.mem_cons_of_mem _ (ih hk hc)
    · cases hs : splitDots s with
      | nil => exact absurd hs (splitDots_ne s)
      | cons w ws =>
        rw [hs] at hk ih
        dsimp only at hk
        rcases List.mem_cons.1 hk with rfl | hk
        · rcases List.mem_cons.1 hc with rfl | hc
          · exact List.mem_cons_self
          · exact List.mem_cons_of_mem _ (ih List.mem_cons_self hc)
        · exact List.mem_cons_of_mem _ (ih (List.mem_cons_of_mem _ hk) hc)

/-- Planting creates only keys of the path. -/
theorem plant_keys {P : Key → Prop} {p : Path} (hp : ∀ k ∈ p, P k) {v : Val} {f : Key → Tree}
    (hf : ∀ q, (Tree.table f).at q ≠ .absent → ∀ k ∈ q, P k) : ∀ q, (Tree.table (plant p v f)).at q ≠ .absent → ∀ k ∈ q, P k := by
  induction p generalizing f with
  | nil => exact hf
  | cons x p ih =>
    intro q hq k hk
    cases q with
    | nil => cases hk
    | cons y q =>
      have hup : ∀ (t : Tree), (∀ q, t.at q ≠ .absent → ∀ k ∈ q, P k) → (Tree.table (upd f x t)).at (y :: q) ≠ .absent → ∀ k ∈ y :: q, P k := fun t ht h k hk => by
        have hat : (Tree.table (upd f x t)).at (y :: q) = (if y = x then t else f y).at q := rfl
        rw [hat] at h
        by_cases hyx : y = x
        · rw [if_pos hyx] at h
          rcases List.mem_cons.1 hk with rfl | hk
          · rw [hyx]; exact hp x List.mem_cons_self
          · exact ht q h k hk
        · rw [if_neg hyx] at h
          exact hf (y :: q) h k hk
      have hp' : ∀ k ∈ p, P k := fun k hk => hp k (List.mem_cons_of_mem _ hk)
      cases p with
      | nil =>
        refine hup (.leaf v) (fun q h => ?_) hq k hk
        cases q with
        | nil => exact fun k hk => (by cases hk)
        | cons => exact absurd rfl h
      | cons x2 p =>
        rw [plant] at hq
        · split at hq
          · refine hup _ (ih hp' fun q h => ?_) hq k hk
            cases q with
            | nil => exact fun k hk => (by cases hk)
            | cons z q => exact absurd (at_absent q) h
          · rename_i g hg
            refine hup _ (ih hp' fun q h k hk => ?_) hq k hk
            exact hf (x :: q) (by rw [show (Tree.table f).at (x :: q) = (f x).at q from rfl, hg]; exact h) k (List.mem_cons_of_mem _ hk)
          · exact ih hp' hf _ hq k hk
        · simp

theorem toLower_idem (x : Char) : x.toLower.toLower = x.toLower := by
  by_cases h : x.toNat < 128
  · have key : ∀ n : Fin 128, (Char.ofNat n).toLower.toLower = (Char.ofNat n).toLower := by decide +kernel
    have := key ⟨x.toNat, h⟩
    simp only [Char.ofNat_toNat] at this
    exact this
  · have hx : x.toLower = x := by
      unfold Char.toLower
      rw [dif_neg]
      rintro ⟨_, h2⟩
      have h2 : x.toNat ≤ 'Z'.toNat := h2
      exact h (Nat.lt_of_le_of_lt h2 (by decide))
    rw [hx, hx]

theorem keyChar_ne {c : Char} (h : c.toLower ≠ c ∨ c = '_') (x : Char) : keyChar x ≠ c := by
  unfold keyChar
  split
  · rintro rfl
    rcases h with h | h
    · exact h (by decide)
    · exact absurd h (by decide)
  · rename_i hx
    rintro rfl
    rcases h with h | h
    · exact h (toLower_idem x)
    · exact hx h

/-- C71, known limitation: no variable can set a path with an underscore or an upper-case letter in it — such as
`datastore.postgres.max_open_conns`, `/repo/engine/datastore.go` — whatever the environment. The configuration there is that
of the file, or (if a variable sets a scalar on the way) nothing. -/
theorem C71_underscore_unreachable {fs : String → FileResult} {env : Environ} {envT t : Tree} (he : EnvGives env envT)
    (h : loadConfig fs env envT .empty = .ok t) {p : Path} {k : Key} {c : Char} (hk : k ∈ p) (hc : c ∈ k) (hbad : c.toLower ≠ c ∨ c = '_') :
    ∃ f, FilesGive fs env f ∧ (t.at p = f.at p ∨ t.at p = .absent) := by
  obtain ⟨f, hf, rfl⟩ := load_inv h
  obtain ⟨l, hl, rfl⟩ := he
  have habs : ∀ q, (unflatten l).at q ≠ .absent → ∀ k ∈ q, c ∉ k := by
    have K : ∀ (l : List (List Char × List Char)) (g : Key → Tree), (∀ x ∈ l, c ∉ x.1) → (∀ q, (Tree.table g).at q ≠ .absent → ∀ k ∈ q, c ∉ k) →
        ∀ q, (Tree.table (l.foldl (fun f x => plant (splitDots x.1) (.text x.2) f) g)).at q ≠ .absent → ∀ k ∈ q, c ∉ k := fun l => by
      induction l with
      | nil => exact fun g _ hg => hg
      | cons x l ih =>
        exact fun g hx hg => ih _ (fun y hy => hx y (List.mem_cons_of_mem _ hy))
          (plant_keys (fun k hk hck => hx x List.mem_cons_self (mem_splitDots hk hck)) hg)
    refine K l _ (fun x hx hcx => ?_) fun q hq => ?_
    · obtain ⟨y, hy, hy'⟩ := flat_var (hl.mem_iff.1 hx)
      rw [← hy'] at hcx
      unfold envKey at hcx
      obtain ⟨z, _, hz⟩ := List.mem_map.1 hcx
      exact keyChar_ne hbad z hz
    · cases q with
      | nil => exact fun k hk => (by cases hk)
      | cons z q => exact absurd (at_absent q) hq
  have hp : (unflatten l).at p = .absent := Classical.byContradiction fun hx => habs p hx k hk hc
  refine ⟨f, hf, ?_⟩
  by_cases hpre : ∀ q v, q <+: p → (unflatten l).at q ≠ .leaf v
  · exact .inl (merge_absent hp hpre)
  · right
    obtain ⟨q, hq⟩ := Classical.not_forall.1 hpre
    obtain ⟨v, hq⟩ := Classical.not_forall.1 hq
    obtain ⟨⟨r, hr⟩, hq⟩ := Classical.not_imp.1 hq
    have hq := Classical.not_not.1 hq
    rw [← hr, at_append, merge_leaf hq]
    refine at_leaf fun hr0 => ?_
    rw [← hr, hr0, List.append_nil, hq] at hp
    cases hp

/-! ### Reading values -/

/-- C71: every getter with a default gives the default if nothing is set. -/
theorem C71_defaults (F : Forms) {t : Tree} {p : Path} (h : t.at p = .absent) (s : List Char) (l : List (List Char)) (b : Bool) (i : Int) :
    getStringDefault F t p s = s ∧ getStringsDefault F t p l = l ∧ getBoolDefault F t p b = b ∧ getIntDefault F t p i = i := by
  have hu : unset t p = true := by unfold unset; rw [h]
  refine ⟨?_, by unfold getStringsDefault; rw [if_pos hu], by unfold getBoolDefault; rw [if_pos hu], by unfold getIntDefault; rw [if_pos hu]⟩
  unfold getStringDefault getString
  rw [h]; rfl

/-- C71: a value that is set and readable is what the getters give, whatever the default. -/
theorem C71_values (F : Forms) {t : Tree} {p : Path} {v : List Char} (h : t.at p = .leaf (.text v)) (hv : v ≠ []) (s : List Char)
    (l : List (List Char)) (b : Bool) (i : Int) : getStringDefault F t p s = v ∧ getStringsDefault F t p l = splitCommas v ∧
    (∀ x, F.parseBool v = some x → getBoolDefault F t p b = x) ∧ ∀ x, F.parseInt v = some x → getIntDefault F t p i = x := by
  have hu : unset t p = false := by unfold unset; rw [h]
  have hs : getString F t p = v := by unfold getString; rw [h]
  have hk : koStrings t p = [] := by unfold koStrings; rw [h]
  refine ⟨?_, ?_, fun x hx => ?_, fun x hx => ?_⟩
  · unfold getStringDefault; rw [hs, if_pos hv]
  · unfold getStringsDefault getStrings; rw [hu, hk, hs]; simp [hv]
  · unfold getBoolDefault getBool; rw [hu, hs, hx]; rfl
  · unfold getIntDefault getInt; rw [hu, hs, hx]; rfl

/-- C71: a list that is set in the file, of whatever length but not empty, is what the getter gives, unsplit. -/
theorem C71_lists (F : Forms) {t : Tree} {p : Path} {vs : List (List Char)} (h : t.at p = .leaf (.array vs)) (hv : vs ≠ [])
    (l : List (List Char)) : getStringsDefault F t p l = vs := by
  have hu : unset t p = false := by unfold unset; rw [h]
  have hk : koStrings t p = vs := by unfold koStrings; rw [h]
  unfold getStringsDefault getStrings
  rw [hu, hk]
  simp [List.length_pos_iff.2 hv]

/-- C71, known limitation: an empty list in the file is not read as an empty list: it is printed (as `[]`) and the text is
split at commas, so that the getter gives a list with one entry. -/
theorem C71_empty_list_defect (F : Forms) {t : Tree} {p : Path} (h : t.at p = .leaf (.array [])) (hF : F.array [] = ['[', ']'])
    (l : List (List Char)) : getStringsDefault F t p l = [['[', ']']] := by
  have hu : unset t p = false := by unfold unset; rw [h]
  have hk : koStrings t p = [] := by unfold koStrings; rw [h]
  have hs : getString F t p = ['[', ']'] := by unfold getString; rw [h]; exact hF
  unfold getStringsDefault getStrings
  rw [hu, hk, hs, if_neg (by decide)]
  decide

/-- The parts of a list variable: joined by commas they are the value, and none contains a comma. -/
theorem C71_list_parts (v : List Char) : joinWith ',' (splitCommas v) = v ∧ ∀ w ∈ splitCommas v, ',' ∉ w := by
  have hne : ∀ s, splitCommas s ≠ [] := fun s => by
    cases s with
    | nil => simp [splitCommas]
    | cons c s =>
      unfold splitCommas
      split
      · simp
      · split <;> simp
  induction v with
  | nil => exact ⟨rfl, fun w hw => by simp [splitCommas] at hw; rw [hw]; simp⟩
  | cons c v ih =>
    unfold splitCommas
    split
    · rename_i h
      refine ⟨by rw [join_cons (hne v), ih.1, h]; rfl, fun w hw => ?_⟩
      rcases List.mem_cons.1 hw with rfl | hw
      · simp
      · exact ih.2 w hw
    · rename_i hcne
      cases hs : splitCommas v with
      | nil => exact absurd hs (hne v)
      | cons w ws =>
        rw [hs] at ih
        dsimp only
        constructor
        · cases ws with
          | nil =>
            show c :: w = _
            rw [show joinWith ',' [w] = w from rfl] at ih; rw [ih.1]
          | cons a b =>
            have h1 := ih.1
            rw [join_cons (by simp)] at h1 ⊢
            rw [List.cons_append, h1]
        · intro x hx
          rcases List.mem_cons.1 hx with rfl | hx
          · intro hm
            rcases List.mem_cons.1 hm with hm | hm
            · exact hcne hm.symm
            · exact ih.2 w List.mem_cons_self hm
          · exact ih.2 x (List.mem_cons_of_mem _ hx)

/-- C71, known limitation: a value that cannot be read as a truth value (a number) counts as false (zero), not as the
default, and nothing is reported; an empty string counts as unset for strings, but not for truth values and numbers. -/
theorem C71_unreadable_is_zero (F : Forms) {t : Tree} {p : Path} {v : List Char} (h : t.at p = .leaf (.text v)) (b : Bool) (i : Int) :
    (F.parseBool v = none → getBoolDefault F t p b = false) ∧ (F.parseInt v = none → getIntDefault F t p i = 0) ∧
    (v = [] → ∀ s l, getStringDefault F t p s = s ∧ getStringsDefault F t p l = []) := by
  have hu : unset t p = false := by unfold unset; rw [h]
  have hs : getString F t p = v := by unfold getString; rw [h]
  have hk : koStrings t p = [] := by unfold koStrings; rw [h]
  refine ⟨fun hx => ?_, fun hx => ?_, fun hv s l => ⟨?_, ?_⟩⟩
  · unfold getBoolDefault getBool; rw [hu, hs, hx]; rfl
  · unfold getIntDefault getInt; rw [hu, hs, hx]; rfl
  · unfold getStringDefault; rw [hs, hv]; rfl
  · unfold getStringsDefault getStrings; rw [hu, hk, hs, hv]; rfl

/-! ### Examples and defects -/

namespace Ex

def a : Key := ['a']
def b : Key := ['b']

/-- TORK_A=1, TORK_A_B=2 -/
def clash : Environ := [(pfx ++ ['A'], ['1']), (pfx ++ ['A', '_', 'B'], ['2'])]

def two : Environ := [(['T', 'O', 'R', 'K', '_', 'B', 'R', 'O', 'K', 'E', 'R', '_', 'T', 'Y', 'P', 'E'], ['r', 'a', 'b', 'b', 'i', 't', 'm', 'q']), (['H', 'O', 'M', 'E'], ['/', 'r', 'o', 'o', 't']), (['T', 'O', 'R', 'K', '_', 'L', 'O', 'G', 'G', 'I', 'N', 'G', '_', 'L', 'E', 'V', 'E', 'L'], ['d', 'e', 'b', 'u', 'g'])]

def file : Key → Tree := fun k => if k = ['b', 'r', 'o', 'k', 'e', 'r'] then .table (fun k => if k = ['t', 'y', 'p', 'e'] then .leaf (.text ['i', 'n', 'm', 'e', 'm', 'o', 'r', 'y']) else .absent)
  else if k = ['d', 'a', 't', 'a', 's', 't', 'o', 'r', 'e'] then .table (fun k => if k = ['t', 'y', 'p', 'e'] then .leaf (.text ['p', 'o', 's', 't', 'g', 'r', 'e', 's']) else .absent) else .absent

def fs : String → FileResult := fun p => if p = "config.toml" then .ok file else .missing

theorem two_unambiguous : Unambiguous two := by unfold Unambiguous; decide +kernel

def _root_.Tork.Conf.Tree.isLeaf : Tree → Val → Bool
  | .leaf w, v => decide (w = v)
  | _, _ => false

/-- C71 applies: the variable wins over the file, the file gives the rest. -/
example : EnvGives two (unflatten (flat two)) ∧ (match loadConfig fs two (unflatten (flat two)) .empty with
    | .ok t => (t.at [['b', 'r', 'o', 'k', 'e', 'r'], ['t', 'y', 'p', 'e']]).isLeaf (.text ['r', 'a', 'b', 'b', 'i', 't', 'm', 'q']) && (t.at [['d', 'a', 't', 'a', 's', 't', 'o', 'r', 'e'], ['t', 'y', 'p', 'e']]).isLeaf (.text ['p', 'o', 's', 't', 'g', 'r', 'e', 's'])
    | .error _ => false) = true := ⟨⟨_, List.Perm.refl _, rfl⟩, by decide +kernel⟩

example : setBy two [['b', 'r', 'o', 'k', 'e', 'r'], ['t', 'y', 'p', 'e']] = some ['r', 'a', 'b', 'b', 'i', 't', 'm', 'q'] := by decide +kernel
example : ∀ x ∈ two.vars, ¬ varPath x.1 <+: [['d', 'a', 't', 'a', 's', 't', 'o', 'r', 'e'], ['t', 'y', 'p', 'e']] ∧ ¬ [['d', 'a', 't', 'a', 's', 't', 'o', 'r', 'e'], ['t', 'y', 'p', 'e']] <+: varPath x.1 := by decide +kernel
example : varName [['b', 'r', 'o', 'k', 'e', 'r'], ['t', 'y', 'p', 'e']] = ['T', 'O', 'R', 'K', '_', 'B', 'R', 'O', 'K', 'E', 'R', '_', 'T', 'Y', 'P', 'E'] := by decide +kernel

end Ex

/-- C71, defect: if one variable sets a scalar where another one needs a table, the outcome depends on the order in which Go
iterates over a map, and the second value is lost or ends up under a key nobody asked for: TORK_A=1 and TORK_A_B=2 set `b`, or not. -/
theorem C71_clash_at_random : ∃ t1 t2, EnvGives Ex.clash t1 ∧ EnvGives Ex.clash t2 ∧
    t1.at [Ex.b] = .leaf (.text ['2']) ∧ t2.at [Ex.b] = .absent ∧
    t1.at [Ex.a, Ex.b] = .absent ∧ t2.at [Ex.a, Ex.b] = .absent := by
  refine ⟨unflatten (flat Ex.clash), unflatten (flat Ex.clash).reverse, ⟨_, List.Perm.refl _, rfl⟩, ⟨_, List.reverse_perm _, rfl⟩, ?_, ?_, ?_, ?_⟩ <;> rfl

end Tork.Conf
