import Verif.Eval
import Verif.EvalSpec
/-! Lemmas about the template scanner and the task evaluator. -/

namespace Tork

/-! ## The scanner -/

theorem length_dropWhile_le {α : Type} (p : α → Bool) (l : List α) : (l.dropWhile p).length ≤ l.length := by
  induction l with
  | nil => simp
  | cons a l ih => simp only [List.dropWhile_cons]; split <;> simp <;> omega

theorem closeTag_length {s r : List Char} (h : closeTag s = some r) : r.length < s.length := by
  unfold closeTag at h
  have hl := length_dropWhile_le isWs s
  split at h
  · rename_i x hx; simp at h; subst h; rw [hx] at hl; simp at hl; omega
  · cases h

theorem lazyTail_length {s e r : List Char} (h : lazyTail s = some (e, r)) : r.length < s.length := by
  induction s generalizing e r with
  | nil => simp [lazyTail] at h
  | cons c s ih =>
    rw [lazyTail] at h
    split at h
    · rename_i r' hc; simp at h; rw [← h.2]; exact closeTag_length hc
    · split at h
      · cases h
      · cases hl : lazyTail s with
        | none => simp [hl] at h
        | some x =>
          obtain ⟨g, r'⟩ := x
          simp [hl] at h
          have := ih hl
          rw [← h.2]; simp; omega

theorem lazyGroup_length {s e r : List Char} (h : lazyGroup s = some (e, r)) : r.length < s.length := by
  cases s with
  | nil => simp [lazyGroup] at h
  | cons c s =>
    rw [lazyGroup] at h
    split at h
    · cases h
    · cases hl : lazyTail s with
      | none => simp [hl] at h
      | some x =>
        obtain ⟨g, r'⟩ := x
        simp [hl] at h
        have := lazyTail_length hl
        rw [← h.2]; simp; omega

theorem tryWs_length {s e r : List Char} {w : Nat} (h : tryWs s w = some (e, r)) : r.length < s.length := by
  induction w with
  | zero => exact lazyGroup_length h
  | succ w ih =>
    rw [tryWs] at h
    split at h
    · rename_i x hx
      obtain ⟨x1, x2⟩ := x
      simp at h
      have := lazyGroup_length hx
      simp at this
      rw [← h.2]; omega
    · exact ih h

theorem matchTag_length {s e r : List Char} (h : matchTag s = some (e, r)) : r.length < s.length := by
  unfold matchTag at h
  split at h
  · have := tryWs_length h; simp; omega
  · cases h

theorem tokensFuel_stable {n m : Nat} {s : List Char} (hn : s.length ≤ n) (hm : s.length ≤ m) :
    tokensFuel n s = tokensFuel m s := by
  induction n generalizing m s with
  | zero =>
    have : s = [] := List.length_eq_zero_iff.1 (by omega)
    subst this
    cases m <;> simp [tokensFuel]
  | succ n ih =>
    cases s with
    | nil => cases m <;> simp [tokensFuel]
    | cons c s =>
      cases m with
      | zero => simp at hm
      | succ m =>
        simp at hn hm
        rw [tokensFuel, tokensFuel]
        split
        · rename_i e r hr
          have := matchTag_length hr
          simp at this
          rw [ih (m := m) (s := r) (by omega) (by omega)]
        · rw [ih hn hm]

theorem tokens_nil : tokens [] = [] := rfl

theorem tokens_cons (c : Char) (s : List Char) : tokens (c :: s) =
    match matchTag (c :: s) with
    | some (e, r) => .expr e :: tokens r
    | none => .lit c :: tokens s := by
  unfold tokens
  simp only [List.length_cons]
  rw [tokensFuel]
  cases hr : matchTag (c :: s) with
  | none => rfl
  | some x =>
    obtain ⟨e, r⟩ := x
    have := matchTag_length hr
    simp at this
    simp only
    rw [tokensFuel_stable (m := r.length) (by omega) (Nat.le_refl _)]

theorem matchTag_ne {c : Char} {s : List Char} (h : c ≠ '{') : matchTag (c :: s) = none := by
  unfold matchTag
  split
  · rename_i heq; simp at heq; exact absurd heq.1 h
  · rfl

theorem matchTag_ne2 {c : Char} {s : List Char} (h : s.head? ≠ some '{') : matchTag (c :: s) = none := by
  unfold matchTag
  split
  · rename_i heq; simp at heq; rw [heq.2] at h; simp at h
  · rfl

/-- text without two consecutive opening braces has no tags -/
theorem tokens_noTag {s : List Char} (h : ¬ ['{', '{'] <:+: s) : tokens s = s.map .lit := by
  induction s with
  | nil => rfl
  | cons c s ih =>
    have hs : ¬ ['{', '{'] <:+: s := fun h' => h (h'.trans (List.suffix_cons c s).isInfix)
    have hm : matchTag (c :: s) = none := by
      by_cases hc : c = '{'
      · apply matchTag_ne2
        intro h1
        cases s with
        | nil => simp at h1
        | cons d s =>
          simp at h1
          subst hc h1
          exact h ⟨[], s, by simp⟩
      · exact matchTag_ne hc
    rw [tokens_cons, hm, ih hs]
    rfl

theorem tokens_text {s r : List Char} (h : '{' ∉ s) : tokens (s ++ r) = s.map .lit ++ tokens r := by
  induction s with
  | nil => rfl
  | cons c s ih =>
    simp at h
    simp only [List.cons_append, List.map_cons]
    rw [tokens_cons, matchTag_ne (Ne.symm h.1), ih h.2]

theorem isWs_iff (c : Char) : isWs c = true ↔ tagSpace c := by
  simp only [isWs, tagSpace, Bool.or_eq_true, decide_eq_true_eq]
  grind

theorem closeTag_tail {s : List Char} {c : Char} (r : List Char) (hc : ¬ tagSpace c) (h : '}' ∉ s ++ [c]) :
    closeTag (s ++ [c] ++ r) = none := by
  induction s with
  | nil =>
    have : isWs c = false := by
      cases hw : isWs c with
      | false => rfl
      | true => exact absurd ((isWs_iff c).1 hw) hc
    simp at h
    simp only [closeTag, List.nil_append, List.cons_append, List.dropWhile_cons, this]
    split
    · rename_i heq; simp at heq; exact absurd heq.1.symm h
    · rfl
  | cons d s ih =>
    simp only [List.cons_append, List.mem_cons, not_or] at h ih ⊢
    by_cases hd : isWs d = true
    · have := ih h.2
      simp only [closeTag, List.cons_append, List.append_assoc, List.dropWhile_cons, hd] at this ⊢
      simpa using this
    · simp only [closeTag, List.dropWhile_cons, hd]
      split
      · rename_i heq; simp at heq; exact absurd heq.1.symm h.1
      · rfl

theorem closeTag_ws {a : List Char} (ha : ∀ c ∈ a, tagSpace c) (r : List Char) :
    closeTag (a ++ ('}' :: '}' :: r)) = some r := by
  induction a with
  | nil => simp [closeTag, isWs]
  | cons c a ih =>
    have h1 : isWs c = true := (isWs_iff c).2 (ha c (by simp))
    have := ih fun c hc => ha c (by simp [hc])
    simp only [closeTag, List.cons_append, List.dropWhile_cons, h1] at this ⊢
    simpa using this

theorem lazyTail_expr {e a : List Char} (ha : ∀ c ∈ a, tagSpace c) (r : List Char) (hb : '}' ∉ e)
    (hn : '\n' ∉ e) (hl : e = [] ∨ ∃ s c, e = s ++ [c] ∧ ¬ tagSpace c) :
    lazyTail (e ++ a ++ ('}' :: '}' :: r)) = some (e, r) := by
  induction e with
  | nil =>
    have hc := closeTag_ws ha r
    cases a with
    | nil => simp only [List.nil_append] at hc ⊢; rw [lazyTail, hc]
    | cons c a => simp only [List.nil_append, List.cons_append] at hc ⊢; rw [lazyTail, hc]
  | cons x e ih =>
    have hl' : ∃ s c, x :: e = s ++ [c] ∧ ¬ tagSpace c := by
      rcases hl with h | h
      · cases h
      · exact h
    obtain ⟨s, c, hs, hc⟩ := hl'
    have hnone : closeTag (x :: (e ++ a ++ ('}' :: '}' :: r))) = none := by
      have := closeTag_tail (s := s) (a ++ ('}' :: '}' :: r)) hc (by rw [← hs]; exact hb)
      rw [← hs] at this
      simpa [List.append_assoc] using this
    simp only [List.cons_append]
    rw [lazyTail, hnone]
    simp only [List.mem_cons, not_or] at hn hb
    simp only [Ne.symm hn.1, if_false]
    rw [ih hb.2 hn.2]
    · rfl
    · cases s with
      | nil => simp at hs; exact .inl hs.2
      | cons y s => simp at hs; exact .inr ⟨s, c, hs.2, hc⟩

theorem takeWhile_ws {b e : List Char} (hb : ∀ c ∈ b, tagSpace c) {c : Char} {s : List Char} (he : e = c :: s)
    (hc : ¬ tagSpace c) (r : List Char) : ((b ++ e ++ r).takeWhile isWs) = b := by
  induction b with
  | nil =>
    subst he
    simp only [List.nil_append, List.cons_append, List.takeWhile_cons]
    cases hw : isWs c with
    | false => rfl
    | true => exact absurd ((isWs_iff c).1 hw) hc
  | cons x b ih =>
    have h1 : isWs x = true := (isWs_iff x).2 (hb x (by simp))
    simp only [List.cons_append, List.takeWhile_cons, h1]
    rw [if_pos trivial, ih fun c hc => hb c (by simp [hc])]

theorem matchTag_tag {b e a : List Char} (r : List Char) (h : (Piece.tag b e a).ok) :
    matchTag ((Piece.tag b e a).render ++ r) = some (e, r) := by
  obtain ⟨hb, ha, hbr, hn, ⟨c, s, he, hc⟩, hlast⟩ := h
  have htw := takeWhile_ws hb he hc (a ++ ('}' :: '}' :: r))
  have hgroup : lazyGroup (e ++ a ++ ('}' :: '}' :: r)) = some (e, r) := by
    subst he
    simp only [List.cons_append]
    have hcn : c ≠ '\n' := by rintro rfl; exact hc (by simp [tagSpace])
    rw [lazyGroup, if_neg hcn, lazyTail_expr ha r]
    · rfl
    · intro hx; exact hbr (by simp [hx])
    · intro hx; exact hn (by simp [hx])
    · obtain ⟨s', c', hs', hc'⟩ := hlast
      cases s' with
      | nil => simp at hs'; exact .inl hs'.2
      | cons y s' => simp at hs'; exact .inr ⟨s', c', hs'.2, hc'⟩
  have hform : (Piece.tag b e a).render ++ r = '{' :: '{' :: (b ++ e ++ (a ++ ('}' :: '}' :: r))) := by
    simp [Piece.render, List.append_assoc]
  rw [hform, matchTag, htw]
  have hdrop : (b ++ e ++ (a ++ ('}' :: '}' :: r))).drop b.length = e ++ a ++ ('}' :: '}' :: r) := by
    simp [List.append_assoc]
  cases hbl : b.length with
  | zero =>
    rw [tryWs]
    rw [hbl] at hdrop
    simp only [List.drop_zero] at hdrop
    rw [hdrop, hgroup]
  | succ n =>
    rw [tryWs]
    rw [hbl] at hdrop
    rw [hdrop, hgroup]

/-- The tokens of a well-formed template are its pieces. -/
def Piece.toks : Piece → List Tok
  | .text s => s.map .lit
  | .tag _ e _ => [.expr e]

theorem tokens_render {ps : List Piece} (h : ∀ p ∈ ps, p.ok) : tokens (renderAll ps) = ps.flatMap Piece.toks := by
  induction ps with
  | nil => rfl
  | cons p ps ih =>
    have hps := ih fun q hq => h q (by simp [hq])
    have hp := h p (by simp)
    simp only [renderAll, List.flatMap_cons] at hps ⊢
    cases p with
    | text s =>
      have h2 : '{' ∉ s := hp
      rw [Piece.render, tokens_text h2, hps]; rfl
    | tag b e a =>
      have hm := matchTag_tag (ps.flatMap Piece.render) hp
      have hform : (Piece.tag b e a).render ++ ps.flatMap Piece.render =
        '{' :: ('{' :: (b ++ e ++ a ++ ['}', '}']) ++ ps.flatMap Piece.render) := by
        simp [Piece.render]
      rw [hform] at hm ⊢
      rw [tokens_cons, hm]
      simp only [hps, Piece.toks, List.cons_append, List.nil_append]

theorem mem_of_mem_dropWhile {α : Type} {p : α → Bool} {l : List α} {a : α} (h : a ∈ l.dropWhile p) : a ∈ l :=
  (List.dropWhile_suffix p).subset h

theorem closeTag_brace {s r : List Char} (h : closeTag s = some r) : '}' ∈ s := by
  unfold closeTag at h
  split at h
  · rename_i heq
    exact mem_of_mem_dropWhile (p := isWs) (by rw [heq]; simp)
  · cases h

theorem lazyTail_brace {s : List Char} {x : List Char × List Char} (h : lazyTail s = some x) : '}' ∈ s := by
  induction s generalizing x with
  | nil => simp [lazyTail] at h
  | cons c s ih =>
    rw [lazyTail] at h
    split at h
    · rename_i hc; exact closeTag_brace hc
    · split at h
      · cases h
      · cases hl : lazyTail s with
        | none => simp [hl] at h
        | some y => exact List.mem_cons_of_mem _ (ih hl)

theorem lazyGroup_brace {s : List Char} {x : List Char × List Char} (h : lazyGroup s = some x) : '}' ∈ s := by
  cases s with
  | nil => simp [lazyGroup] at h
  | cons c s =>
    rw [lazyGroup] at h
    split at h
    · cases h
    · cases hl : lazyTail s with
      | none => simp [hl] at h
      | some y => exact List.mem_cons_of_mem _ (lazyTail_brace hl)

theorem tryWs_brace {s : List Char} {w : Nat} {x : List Char × List Char} (h : tryWs s w = some x) : '}' ∈ s := by
  induction w with
  | zero => exact lazyGroup_brace h
  | succ w ih =>
    rw [tryWs] at h
    split at h
    · rename_i hx; exact List.mem_of_mem_drop (lazyGroup_brace hx)
    · exact ih h

theorem matchTag_brace {s : List Char} {x : List Char × List Char} (h : matchTag s = some x) : '}' ∈ s := by
  unfold matchTag at h
  split at h
  · exact List.mem_cons_of_mem _ (List.mem_cons_of_mem _ (tryWs_brace h))
  · cases h

theorem tokens_noBrace {s : List Char} (h : '}' ∉ s) : tokens s = s.map .lit := by
  induction s with
  | nil => rfl
  | cons c s ih =>
    have hm : matchTag (c :: s) = none := by
      cases hx : matchTag (c :: s) with
      | none => rfl
      | some x => exact absurd (matchTag_brace hx) h
    rw [tokens_cons, hm, ih fun hx => h (by simp [hx])]
    rfl

theorem sanitizeExpr_noBrace {s : List Char} (h : '}' ∉ s) : sanitizeExpr s = s := by
  unfold sanitizeExpr
  rw [tokens_noBrace h]
  have : (s.map Tok.lit).findSome? Tok.expr? = none := by
    clear h
    induction s with
    | nil => rfl
    | cons c s ih => simp only [List.map_cons, List.findSome?_cons, Tok.expr?]; exact ih
  rw [this]

theorem evalToks_lits (ee : String → Except Err Val) (s : List Char) (ts : List Tok) :
    evalToks ee (s.map .lit ++ ts) = match evalToks ee ts with | .ok r => .ok (s ++ r) | .error e => .error e := by
  induction s with
  | nil => simp; split <;> simp_all
  | cons c s ih =>
    simp only [List.map_cons, List.cons_append, evalToks, ih]
    cases evalToks ee ts <;> rfl

/-! ## The task evaluator -/

section
variable {tm : String → Except Err String} {g : String → String}

theorem evalMap_ok {m : StrMap} (h : ∀ kv ∈ m, tm kv.2 = .ok (g kv.2)) : evalMap tm m = (mapVals g m, none) := by
  induction m with
  | nil => rfl
  | cons kv m ih =>
    obtain ⟨k, v⟩ := kv
    have h1 := h (k, v) (by simp)
    simp only at h1
    rw [evalMap, h1, ih fun kv hk => h kv (by simp [hk])]
    rfl

theorem evalList_ok {m : List String} (h : ∀ v ∈ m, tm v = .ok (g v)) : evalList tm m = (m.map g, none) := by
  induction m with
  | nil => rfl
  | cons v m ih =>
    rw [evalList, h v (by simp), ih fun v hv => h v (by simp [hv])]
    rfl

theorem evalMap_err {m : StrMap} {m' : StrMap} (h : evalMap tm m = (m', none)) {kv : String × String}
    (hk : kv ∈ m) : ∃ y, tm kv.2 = .ok y := by
  induction m generalizing m' with
  | nil => simp at hk
  | cons x m ih =>
    obtain ⟨k, v⟩ := x
    rw [evalMap] at h
    split at h
    · simp at h
    · rename_i r hr
      rcases hx : evalMap tm m with ⟨m2, e⟩
      rw [hx] at h
      simp at h
      rcases List.mem_cons.1 hk with rfl | hk
      · exact ⟨r, hr⟩
      · exact ih (m' := m2) (by rw [hx, h.2]) hk

theorem evalList_err {m m' : List String} (h : evalList tm m = (m', none)) {v : String}
    (hk : v ∈ m) : ∃ y, tm v = .ok y := by
  induction m generalizing m' with
  | nil => simp at hk
  | cons x m ih =>
    rw [evalList] at h
    split at h
    · simp at h
    · rename_i r hr
      rcases hx : evalList tm m with ⟨m2, e⟩
      rw [hx] at h
      simp at h
      rcases List.mem_cons.1 hk with rfl | hk
      · exact ⟨r, hr⟩
      · exact ih (m' := m2) (by rw [hx, h.2]) hk

def mapWebhook (g : String → String) (w : Webhook) : Webhook :=
  { w with url := g w.url, headers := mapVals g w.headers }

def webhookTexts (w : Webhook) : List String := w.url :: w.headers.map (·.2)

theorem evalWebhooks_ok {ws : List Webhook} (h : ∀ w ∈ ws, ∀ x ∈ webhookTexts w, tm x = .ok (g x)) :
    evalWebhooks tm ws = (ws.map (mapWebhook g), none) := by
  induction ws with
  | nil => rfl
  | cons w ws ih =>
    have h1 := h w (by simp)
    rw [evalWebhooks, h1 w.url (by simp [webhookTexts])]
    simp only
    rw [evalMap_ok (g := g) fun kv hk => h1 kv.2 (by simp [webhookTexts]; exact .inr ⟨kv.1, hk⟩)]
    simp only
    rw [ih fun w hw => h w (by simp [hw])]
    rfl

theorem evalWebhooks_err {ws ws' : List Webhook} (h : evalWebhooks tm ws = (ws', none)) {w : Webhook}
    (hw : w ∈ ws) : ∀ x ∈ webhookTexts w, ∃ y, tm x = .ok y := by
  induction ws generalizing ws' with
  | nil => simp at hw
  | cons w0 ws ih =>
    rw [evalWebhooks] at h
    split at h
    · simp at h
    · rename_i u hu
      split at h
      · simp at h
      · rename_i hh hm
        rcases hx : evalWebhooks tm ws with ⟨w2, e⟩
        rw [hx] at h
        simp at h
        rcases List.mem_cons.1 hw with rfl | hw
        · intro x hx'
          rcases List.mem_cons.1 hx' with rfl | hx'
          · exact ⟨u, hu⟩
          · obtain ⟨kv, hk, rfl⟩ := List.mem_map.1 hx'
            exact evalMap_err hm hk
        · exact ih (ws' := w2) (by rw [hx, h.2]) hw

end

end Tork
