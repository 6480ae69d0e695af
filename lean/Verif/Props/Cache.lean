import Verif.Cache
/-!
# C34 — the cache

The specification looks at one key only: `Entry` is what a user who knows the calls expects of the key.
-/

namespace Tork.Cache
variable {V : Type}

@[simp] theorem lookup_put (l : List (String × Item V)) (k k' : String) (x : Item V) :
    lookup (put l k x) k' = if k = k' then some x else lookup l k' := by
  induction l with
  | nil => simp [put, lookup]
  | cons p l ih =>
    obtain ⟨a, y⟩ := p
    unfold put
    by_cases h : a = k
    · subst h; simp only [if_true, lookup]; split <;> rfl
    · simp only [h, if_false, lookup, ih]
      by_cases h2 : a = k'
      · subst h2; simp [Ne.symm h]
      · simp [h2]

theorem lookup_none {l : List (String × Item V)} {k : String} : lookup l k = none ↔ k ∉ l.map (·.1) := by
  induction l with
  | nil => simp [lookup]
  | cons p l ih =>
    obtain ⟨a, y⟩ := p
    unfold lookup
    by_cases h : a = k
    · subst h; simp
    · simp [h, ih, Ne.symm h]

theorem lookup_filter {l : List (String × Item V)} (hn : (l.map (·.1)).Nodup) (p : String × Item V → Bool) (k : String) :
    lookup (l.filter p) k = match lookup l k with | some x => if p (k, x) then some x else none | none => none := by
  induction l with
  | nil => rfl
  | cons q l ih =>
    obtain ⟨a, y⟩ := q
    rw [List.map_cons, List.nodup_cons] at hn
    rw [List.filter_cons]
    by_cases h : a = k
    · subst h
      have hnone : lookup (l.filter p) a = none := by
        rw [lookup_none]; intro hc
        obtain ⟨z, hz, he⟩ := List.mem_map.1 hc
        exact hn.1 (List.mem_map.2 ⟨z, (List.mem_filter.1 hz).1, he⟩)
      by_cases hp : p (a, y) = true
      · simp [lookup, hp]
      · simp [lookup, hp, hnone]
    · by_cases hp : p (a, y) = true
      · simp [lookup, hp, h, ih hn.2]
      · simp [lookup, hp, h, ih hn.2]

theorem put_keys (l : List (String × Item V)) (k : String) (x : Item V) :
    (put l k x).map (·.1) = if k ∈ l.map (·.1) then l.map (·.1) else l.map (·.1) ++ [k] := by
  induction l with
  | nil => rfl
  | cons p l ih =>
    obtain ⟨a, y⟩ := p
    unfold put
    by_cases h : a = k
    · subst h; simp
    · rw [if_neg h, List.map_cons, ih]
      by_cases h2 : k ∈ l.map (·.1)
      · simp only [List.map_cons, List.mem_cons, h2, or_true, if_true]
      · simp only [List.map_cons, List.mem_cons, h2, or_false, Ne.symm h, if_false, List.cons_append]

/-- Keys of the map are distinct in every reachable cache. -/
def Keys (c : Cache V) : Prop := (c.items.map (·.1)).Nodup

theorem keys_put {l : List (String × Item V)} (h : (l.map (·.1)).Nodup) (k : String) (x : Item V) :
    ((put l k x).map (·.1)).Nodup := by
  rw [put_keys]
  split
  · exact h
  · rename_i hk
    rw [List.nodup_append]
    refine ⟨h, by simp, ?_⟩
    intro a ha b hb; simp at hb; subst hb; exact fun hc => hk (hc ▸ ha)

theorem keys_step {c : Cache V} (h : Keys c) (p : Int × Op V) : Keys (step c p) := by
  obtain ⟨now, op⟩ := p
  unfold Keys at h ⊢
  cases op with
  | set k v d => exact keys_put h _ _
  | setExpiration k d =>
    simp only [step, setExpiration]; split
    · exact h
    · exact keys_put h _ _
  | modify k m =>
    simp only [step, modify]; split
    · exact h
    · split
      · exact h
      · exact keys_put h _ _
  | delete k =>
    simp only [step, delete]; split
    · exact h
    · exact h.sublist (List.filter_sublist.map _)
  | deleteExpired => exact h.sublist (List.filter_sublist.map _)
  | flush => simp [step, flush]

/-- A cache after a history of calls. -/
def after (de : Int) (cb : Bool) (h : List (Int × Op V)) : Cache V := h.foldl step (new de cb)

theorem keys_after (de : Int) (cb : Bool) (h : List (Int × Op V)) : Keys (after (V := V) de cb h) := by
  unfold after
  have : ∀ c : Cache V, Keys c → Keys (h.foldl step c) := by
    induction h with
    | nil => intro c hc; exact hc
    | cons p h ih => intro c hc; exact ih _ (keys_step hc p)
  exact this _ (by simp [Keys, new])

/-! ### Specification for one key -/

/-- A value and the instant after which it is gone (`none`: never). -/
structure Entry (V : Type) where
  value : V
  until_ : Option Int

/-- When an entry written at `now` with duration `d` ends: `0` means the default, a default or duration that is not
positive means never. -/
def deadline (de now d : Int) : Option Int :=
  if d = 0 then (if de > 0 then some (now + de) else none) else if d > 0 then some (now + d) else none

def Entry.dead (e : Entry V) (now : Int) : Prop := ∃ t, e.until_ = some t ∧ t < now

instance (e : Entry V) (now : Int) : Decidable (e.dead now) := by
  unfold Entry.dead
  exact match e.until_ with
    | none => isFalse (by simp)
    | some t => if h : t < now then isTrue ⟨t, rfl, h⟩ else isFalse (by rintro ⟨t', h', h''⟩; cases h'; exact h h'')

/-- What a call does to the key `k`. -/
def effect (de : Int) (k : String) (e : Option (Entry V)) : Int × Op V → Option (Entry V)
  | (now, .set k' v d) => if k' = k then some ⟨v, deadline de now d⟩ else e
  | (now, .setExpiration k' d) => if k' = k then e.map fun x => ⟨x.value, deadline de now d⟩ else e
  | (_, .modify k' m) => if k' = k then e.map fun x => ⟨(m x.value).getD x.value, x.until_⟩ else e
  | (_, .delete k') => if k' = k then none else e
  | (now, .deleteExpired) => match e with
    | some x => if x.dead now then none else some x
    | none => none
  | (_, .flush) => none

/-- The representation of deadlines by the item's expiration field. -/
def Rep (x : Item V) (e : Entry V) : Prop :=
  x.obj = e.value ∧ match e.until_ with | none => x.exp = 0 | some t => x.exp = t ∧ t > 0

def RepO : Option (Item V) → Option (Entry V) → Prop
  | none, none => True
  | some x, some e => Rep x e
  | _, _ => False

/-- The clock never shows a negative time, and durations do not lead before it. -/
def ClockOk (h : List (Int × Op V)) : Prop := ∀ p ∈ h, 0 < p.1

theorem rep_expiry (c : Cache V) (de now d : Int) (hn : 0 < now) (hd : c.def_ = if de = 0 then -1 else de) (v : V) :
    Rep ⟨v, expiry c now d⟩ ⟨v, deadline de now d⟩ := by
  refine ⟨rfl, ?_⟩
  unfold expiry deadline
  simp only [hd]
  by_cases h0 : d = 0
  · subst h0
    simp only [if_true]
    by_cases h1 : de = 0
    · subst h1; simp
    · rw [if_neg h1]
      by_cases h2 : de > 0
      · simp only [h2, if_true]; exact ⟨trivial, by omega⟩
      · simp [h2]
  · simp only [h0, if_false]
    by_cases h2 : d > 0
    · simp only [h2, if_true]; exact ⟨trivial, by omega⟩
    · simp [h2]

theorem rep_expired {x : Item V} {e : Entry V} (h : Rep x e) (now : Int) : x.expired now = true ↔ e.dead now := by
  obtain ⟨_, h2⟩ := h
  unfold Item.expired Entry.dead
  cases hu : e.until_ with
  | none => rw [hu] at h2; simp only at h2; simp [h2]
  | some t => rw [hu] at h2; simp only at h2; simp [h2.1, h2.2]

theorem step_def (c : Cache V) (p : Int × Op V) : (step c p).def_ = c.def_ ∧ (step c p).hasCb = c.hasCb := by
  obtain ⟨now, op⟩ := p
  cases op with
  | set k v d => exact ⟨rfl, rfl⟩
  | setExpiration k d => simp only [step, setExpiration]; split <;> exact ⟨rfl, rfl⟩
  | modify k m =>
    simp only [step, modify]; split
    · exact ⟨rfl, rfl⟩
    · split <;> exact ⟨rfl, rfl⟩
  | delete k => simp only [step, delete]; split <;> exact ⟨rfl, rfl⟩
  | deleteExpired => exact ⟨rfl, rfl⟩
  | flush => exact ⟨rfl, rfl⟩

theorem step_rep {c : Cache V} {de : Int} {k : String} {e : Option (Entry V)} (p : Int × Op V) (hn : 0 < p.1)
    (hk : Keys c) (hd : c.def_ = if de = 0 then -1 else de) (h : RepO (lookup c.items k) e) :
    RepO (lookup (step c p).items k) (effect de k e p) := by
  obtain ⟨now, op⟩ := p
  simp only at hn
  cases op with
  | set k' v d =>
    simp only [step, set, lookup_put, effect]
    split
    · exact rep_expiry c de now d hn hd v
    · exact h
  | setExpiration k' d =>
    simp only [step, setExpiration, effect]
    by_cases hkk : k' = k
    · subst hkk
      rw [if_pos rfl]
      cases hl : lookup c.items k' with
      | none => rw [hl] at h; cases e with
        | none => simpa [hl] using h
        | some e => cases h
      | some x => rw [hl] at h; cases e with
        | none => cases h
        | some e =>
          simp only [lookup_put, if_true, Option.map_some]
          have := rep_expiry c de now d hn hd e.value
          exact ⟨h.1, this.2⟩
    · rw [if_neg hkk]
      split
      · exact h
      · simp only [lookup_put, hkk, if_false]; exact h
  | modify k' m =>
    simp only [step, modify, effect]
    by_cases hkk : k' = k
    · subst hkk
      rw [if_pos rfl]
      cases hl : lookup c.items k' with
      | none => rw [hl] at h; cases e with
        | none => simpa [hl] using h
        | some e => cases h
      | some x => rw [hl] at h; cases e with
        | none => cases h
        | some e =>
          simp only [Option.map_some]
          cases hm : m x.obj with
          | none =>
            simp only [hl]
            rw [h.1] at hm
            rw [hm]
            exact h
          | some w =>
            simp only [lookup_put, if_true]
            rw [h.1] at hm
            rw [hm]
            exact ⟨rfl, h.2⟩
    · rw [if_neg hkk]
      split
      · exact h
      · split
        · exact h
        · simp only [lookup_put, hkk, if_false]; exact h
  | delete k' =>
    simp only [step, delete, effect]
    by_cases hkk : k' = k
    · subst hkk
      rw [if_pos rfl]
      split
      · rename_i hl; rw [hl]; trivial
      · simp only [remove]
        rw [lookup_filter hk]
        cases lookup c.items k' <;> simp [RepO]
    · rw [if_neg hkk]
      split
      · exact h
      · simp only [remove]
        rw [lookup_filter hk]
        cases hl : lookup c.items k with
        | none => rw [hl] at h; exact h
        | some x => rw [hl] at h; simpa [Ne.symm hkk] using h
  | deleteExpired =>
    simp only [step, deleteExpired, effect]
    rw [lookup_filter hk]
    cases hl : lookup c.items k with
    | none => rw [hl] at h; cases e with
      | none => trivial
      | some e => cases h
    | some x => rw [hl] at h; cases e with
      | none => cases h
      | some e =>
        have hx := rep_expired h now
        by_cases hdd : e.dead now
        · simp only [if_pos hdd]; rw [hx.2 hdd]; trivial
        · simp only [if_neg hdd]
          have : x.expired now = false := by simpa using fun hc => hdd (hx.1 hc)
          rw [this]; exact h
  | flush => simp only [step, flush, effect]; trivial

theorem rep_after (de : Int) (cb : Bool) (hist : List (Int × Op V)) (hc : ClockOk hist) (k : String) :
    RepO (lookup (after de cb hist).items k) (hist.foldl (effect de k) none) := by
  have main : ∀ (h : List (Int × Op V)) (c : Cache V) (e : Option (Entry V)), ClockOk h → Keys c →
      (c.def_ = if de = 0 then -1 else de) → RepO (lookup c.items k) e →
      RepO (lookup (h.foldl step c).items k) (h.foldl (effect de k) e) := by
    intro h
    induction h with
    | nil => intro c e _ _ _ hr; exact hr
    | cons p h ih =>
      intro c e hc hk hd hr
      exact ih _ _ (fun q hq => hc q (by simp [hq])) (keys_step hk p) (by rw [(step_def c p).1]; exact hd)
        (step_rep p (hc p (by simp)) hk hd hr)
  exact main hist (new de cb) none hc (by simp [Keys, new]) rfl trivial

/-- **C34 (replies).** After any history of calls, setting the expiration of a key succeeds exactly if the key is known (even when its
deadline has passed but it was not cleaned up yet), and modifying it exactly if it is known and the function accepts its value. -/
theorem C34_replies (de : Int) (cb : Bool) (hist : List (Int × Op V)) (hc : ClockOk hist) (k : String) :
    (∀ now d, (setExpiration (after de cb hist) now k d).2 = (hist.foldl (effect de k) none).isSome) ∧
    ∀ m, (modify (after de cb hist) k m).2 = ((hist.foldl (effect de k) none).bind fun e => m e.value).isSome := by
  have := rep_after de cb hist hc k
  cases hl : lookup (after de cb hist).items k with
  | none =>
    rw [hl] at this
    cases he : hist.foldl (effect de k) none with
    | none => simp [setExpiration, modify, hl]
    | some e => rw [he] at this; cases this
  | some x =>
    rw [hl] at this
    cases he : hist.foldl (effect de k) none with
    | none => rw [he] at this; cases this
    | some e =>
      rw [he] at this
      refine ⟨by simp [setExpiration, hl], fun m => ?_⟩
      simp only [modify, hl, Option.bind_some, ← this.1]
      cases m x.obj <;> rfl

/-- **C34 (lookup).** After any history of calls a get returns exactly the value the key has according to the
calls on that key alone: the value of the latest set with the later modifications applied, unless it was deleted,
flushed or its deadline passed. -/
theorem C34_get (de : Int) (cb : Bool) (hist : List (Int × Op V)) (hc : ClockOk hist) (k : String) (now : Int) :
    get (after de cb hist) now k =
      match hist.foldl (effect de k) none with
      | some e => if e.dead now then none else some e.value
      | none => none := by
  have := rep_after de cb hist hc k
  unfold after at this
  unfold after get
  cases hl : lookup (hist.foldl step (new de cb)).items k with
  | none =>
    rw [hl] at this
    cases he : hist.foldl (effect de k) none with
    | none => rfl
    | some e => rw [he] at this; cases this
  | some x =>
    rw [hl] at this
    cases he : hist.foldl (effect de k) none with
    | none => rw [he] at this; cases this
    | some e =>
      rw [he] at this
      have hx := rep_expired this now
      simp only
      by_cases hd : e.dead now
      · rw [if_pos hd, hx.2 hd]; rfl
      · rw [if_neg hd]
        have h2 : x.expired now = false := by simpa using fun hc => hd (hx.1 hc)
        rw [h2, this.1]; rfl

/-- A call that cannot affect the key: it is about another key, or it is a cleanup. -/
def Elsewhere (k : String) : Int × Op V → Prop
  | (_, .set k' _ _) | (_, .setExpiration k' _) | (_, .modify k' _) | (_, .delete k') => k' ≠ k
  | (_, .deleteExpired) => True
  | (_, .flush) => False

/-- In particular: after a set, whatever happens to other keys and however often the cleanup runs, a get returns
the value as long as its time has not come, and nothing afterwards. -/
theorem C34_get_after_set (de : Int) (cb : Bool) (before later : List (Int × Op V)) (t d now : Int) (k : String)
    (v : V) (hc : ClockOk (before ++ (t, .set k v d) :: later)) (hl : ∀ p ∈ later, Elsewhere k p)
    (hmono : ∀ p ∈ later, p.1 ≤ now) :
    get (after de cb (before ++ (t, .set k v d) :: later)) now k =
      match deadline de t d with
      | some u => if u < now then none else some v
      | none => some v := by
  rw [C34_get de cb _ hc, List.foldl_append, List.foldl_cons]
  generalize hist0 : before.foldl (effect de k) none = e0
  have h1 : effect de k e0 (t, .set k v d) = some ⟨v, deadline de t d⟩ := by simp [effect]
  rw [h1]
  have keep : ∀ (l : List (Int × Op V)), (∀ p ∈ l, Elsewhere k p) → (∀ p ∈ l, p.1 ≤ now) → ∀ e : Option (Entry V),
      (e = some ⟨v, deadline de t d⟩ ∨ (e = none ∧ (⟨v, deadline de t d⟩ : Entry V).dead now)) →
      (l.foldl (effect de k) e = some ⟨v, deadline de t d⟩ ∨
        (l.foldl (effect de k) e = none ∧ (⟨v, deadline de t d⟩ : Entry V).dead now)) := by
    intro l
    induction l with
    | nil => intro _ _ e he; exact he
    | cons p l ih =>
      intro hp hm e he
      refine ih (fun q hq => hp q (by simp [hq])) (fun q hq => hm q (by simp [hq])) _ ?_
      obtain ⟨τ, op⟩ := p
      have hpe := hp (τ, op) (by simp)
      have hτ : τ ≤ now := hm (τ, op) (by simp)
      cases op with
      | set k' _ _ => simp only [effect, if_neg (show k' ≠ k from hpe)]; exact he
      | setExpiration k' _ => simp only [effect, if_neg (show k' ≠ k from hpe)]; exact he
      | modify k' _ => simp only [effect, if_neg (show k' ≠ k from hpe)]; exact he
      | delete k' => simp only [effect, if_neg (show k' ≠ k from hpe)]; exact he
      | deleteExpired =>
        rcases he with rfl | ⟨rfl, hdead⟩
        · simp only [effect]
          by_cases hd : (⟨v, deadline de t d⟩ : Entry V).dead τ
          · rw [if_pos hd]
            obtain ⟨u, h1, h2⟩ := hd
            exact .inr ⟨rfl, u, h1, by omega⟩
          · rw [if_neg hd]; exact .inl rfl
        · exact .inr ⟨rfl, hdead⟩
      | flush => exact absurd hpe (by simp [Elsewhere])
  rcases keep later hl hmono _ (.inl rfl) with h | ⟨h, hd⟩
  · rw [h]
    simp only
    cases hu : deadline de t d with
    | none => rw [if_neg]; rintro ⟨u, h1, _⟩; simp at h1
    | some u =>
      simp only
      by_cases h2 : u < now
      · rw [if_pos h2, if_pos ⟨u, rfl, h2⟩]
      · rw [if_neg h2, if_neg]; rintro ⟨u', h1, h3⟩; simp at h1; omega
  · rw [h]
    obtain ⟨u, h1, h2⟩ := hd
    simp only at h1
    rw [h1]
    simp only [h2, if_true]

theorem mem_lookup {l : List (String × Item V)} (hn : (l.map (·.1)).Nodup) {k : String} {x : Item V} :
    (k, x) ∈ l ↔ lookup l k = some x := by
  induction l with
  | nil => simp [lookup]
  | cons q l ih =>
    obtain ⟨a, y⟩ := q
    rw [List.map_cons, List.nodup_cons] at hn
    unfold lookup
    by_cases h : a = k
    · subst h
      simp only [List.mem_cons, Prod.mk.injEq, true_and, if_true, Option.some.injEq]
      constructor
      · rintro (h | h)
        · exact h.symm
        · exact absurd (List.mem_map.2 ⟨(a, x), h, rfl⟩) hn.1
      · intro h; exact .inl h.symm
    · simp [h, Ne.symm h, ih hn.2]

/-- **C34 (cleanup).** A cleanup keeps exactly the entries that are not expired, unchanged, and calls the eviction
callback (if any) exactly once for each removed entry with its key and value. -/
theorem C34_cleanup (de : Int) (cb : Bool) (hist : List (Int × Op V)) (now : Int) :
    let c := after (V := V) de cb hist
    let c' := deleteExpired c now
    (∀ k t, get c' t k = if (∃ x, lookup c.items k = some x ∧ x.expired now) then none else get c t k) ∧
    ∃ removed : List (String × Item V), c.items.Perm (c'.items ++ removed) ∧
      (∀ p ∈ removed, p.2.expired now) ∧ (∀ p ∈ c'.items, p.2.expired now = false) ∧
      (removed.map (·.1)).Nodup ∧
      c'.evicted = c.evicted ++ if cb then removed.map fun p => (p.1, p.2.obj) else [] := by
  intro c c'
  have hk : Keys c := keys_after de cb hist
  have hcb : c.hasCb = cb := by
    have : ∀ (h : List (Int × Op V)) (c : Cache V), (h.foldl step c).hasCb = c.hasCb := by
      intro h
      induction h with
      | nil => intro c; rfl
      | cons p h ih => intro c; rw [List.foldl_cons, ih, (step_def c p).2]
    exact this hist _
  refine ⟨fun k t => ?_, c.items.filter (fun p => p.2.expired now), ?_, ?_, ?_, ?_, ?_⟩
  · simp only [c', get, deleteExpired]
    rw [lookup_filter hk]
    cases hl : lookup c.items k with
    | none => simp
    | some x =>
      cases hx : x.expired now with
      | true => simp [hx]
      | false => simp [hx]
  · have : ∀ l : List (String × Item V),
        l.Perm ((l.filter fun p => !p.2.expired now) ++ l.filter fun p => p.2.expired now) := by
      intro l
      induction l with
      | nil => exact .refl _
      | cons p l ih =>
        cases hx : p.2.expired now
        · simp only [List.filter_cons, hx, Bool.not_false, if_true, Bool.false_eq_true, if_false, List.cons_append]
          exact ih.cons p
        · simp only [List.filter_cons, hx, Bool.not_true, Bool.false_eq_true, if_false, if_true]
          exact (ih.cons p).trans List.perm_middle.symm
    exact this c.items
  · intro p hp; exact (List.mem_filter.1 hp).2
  · intro p hp; simpa using (List.mem_filter.1 hp).2
  · exact hk.sublist (List.filter_sublist.map _)
  · simp only [c', deleteExpired, hcb]

/-- Deleting a key removes it and calls the callback once with its value if it was present (expired or not), and
does nothing otherwise. -/
theorem C34_delete (c : Cache V) (hk : Keys c) (k : String) :
    (∀ t k', get (delete c k) t k' = if k' = k then none else get c t k') ∧
    (delete c k).evicted = c.evicted ++
      match lookup c.items k with
      | some x => if c.hasCb then [(k, x.obj)] else []
      | none => [] := by
  constructor
  · intro t k'
    unfold delete
    cases hl : lookup c.items k with
    | none =>
      simp only [get]
      by_cases h : k' = k
      · subst h; simp [hl]
      · simp [h]
    | some x =>
      simp only [get, remove]
      rw [lookup_filter hk]
      by_cases h : k' = k
      · subst h; simp [hl]
      · cases lookup c.items k' <;> simp [h]
  · unfold delete
    cases hl : lookup c.items k with
    | none => simp
    | some x => rfl

/-- **Weak point.** Extending the lifetime of an entry that has already expired succeeds and brings the value back
if the cleanup has not run in between, and fails if it has: the outcome depends on the timing of the cleanup. -/
theorem C34_expired_entry_revived :
    let h : List (Int × Op Nat) := [(1, .set "k" 7 10)]
    get (after 0 false h) 20 "k" = none ∧
    get (after 0 false (h ++ [(20, .setExpiration "k" 100)])) 21 "k" = some 7 ∧
    get (after 0 false (h ++ [(20, .deleteExpired), (20, .setExpiration "k" 100)])) 21 "k" = none := by
  decide +kernel

/-- A listing shows exactly the entries a `Get` at the same moment would return, one value for each key: no expired
or deleted value, and none twice. -/
theorem C34_list (de : Int) (cb : Bool) (hist : List (Int × Op V)) (now : Int) :
    ∃ keys : List String, keys.Nodup ∧ (∀ k, k ∈ keys ↔ (get (after de cb hist) now k).isSome) ∧
      (list (after de cb hist) now).map some = keys.map (get (after de cb hist) now) := by
  have hk : Keys (after (V := V) de cb hist) := keys_after de cb hist
  generalize after de cb hist = c at hk
  have gen : ∀ l : List (String × Item V), (l.map (·.1)).Nodup →
      ∀ k, (match lookup l k with | none => none | some x => if x.expired now then none else some x.obj) =
        ((l.filter fun p => !p.2.expired now).find? (·.1 = k)).map (·.2.obj) := by
    intro l
    induction l with
    | nil => intro _ k; rfl
    | cons p l ih =>
      intro hn k
      rw [List.map_cons, List.nodup_cons] at hn
      have := ih hn.2 k
      by_cases hp : p.1 = k
      · subst hp
        have hl : lookup (p :: l) p.1 = some p.2 := by simp [lookup]
        rw [hl]
        simp only
        by_cases he : p.2.expired now
        · rw [if_pos he, List.filter_cons_of_neg (by simp [he])]
          symm
          rw [Option.map_eq_none_iff, List.find?_eq_none]
          intro q hq hqk
          simp only [decide_eq_true_eq] at hqk
          exact hn.1 (List.mem_map.2 ⟨q, (List.mem_filter.1 hq).1, hqk⟩)
        · rw [if_neg he, List.filter_cons_of_pos (by simpa using he)]
          simp
      · have hl : lookup (p :: l) k = lookup l k := by simp [lookup, hp]
        rw [hl, this]
        by_cases he : p.2.expired now
        · rw [List.filter_cons_of_neg (by simp [he])]
        · rw [List.filter_cons_of_pos (by simpa using he), List.find?_cons_of_neg (by simpa using hp)]
  have hsub : ((c.items.filter fun p => !p.2.expired now).map (·.1)).Nodup :=
    hk.sublist (List.filter_sublist.map _)
  refine ⟨(c.items.filter fun p => !p.2.expired now).map (·.1), hsub, ?_, ?_⟩
  · intro k
    show _ ↔ (match lookup c.items k with | none => none | some x => if x.expired now then none else some x.obj).isSome
    rw [gen c.items hk k]
    simp only [Option.isSome_map, List.find?_isSome, List.mem_map, decide_eq_true_eq]
  · have : ∀ k, get c now k =
        ((c.items.filter fun p => !p.2.expired now).find? (·.1 = k)).map (·.2.obj) := gen c.items hk
    unfold list
    simp only [List.map_map]
    apply List.map_congr_left
    intro p hp
    simp only [Function.comp_apply]
    rw [this]
    have hfind : ∀ l : List (String × Item V), (l.map (·.1)).Nodup → p ∈ l → l.find? (·.1 = p.1) = some p := by
      intro l
      induction l with
      | nil => intro _ h; cases h
      | cons q l ih =>
        intro hn hm
        rw [List.map_cons, List.nodup_cons] at hn
        rcases List.mem_cons.1 hm with rfl | hm
        · simp
        · by_cases hq : q.1 = p.1
          · exact absurd (List.mem_map.2 ⟨p, hm, hq.symm⟩) hn.1
          · rw [List.find?_cons_of_neg (by simpa using hq)]
            exact ih hn.2 hm
    rw [hfind _ hsub hp]
    rfl

example : list (after 0 true [((1 : Int), Op.set "a" (1 : Nat) 10), (2, .set "b" 2 (-1)), (3, .set "c" 3 50)]) 20 =
    [2, 3] := by decide +kernel

/-- A concrete history for the hypotheses above. -/
example : ClockOk [((1 : Int), Op.set "a" (1 : Nat) 10), (2, .set "b" 2 (-1)), (3, .modify "a" fun x => some (x + 5)),
      (12, .deleteExpired)] ∧
    get (after 0 true [((1 : Int), Op.set "a" (1 : Nat) 10), (2, .set "b" 2 (-1)), (3, .modify "a" fun x => some (x + 5))])
      11 "a" = some 6 := by
  constructor
  · intro p hp; simp at hp; rcases hp with rfl | rfl | rfl | rfl <;> decide
  · decide +kernel

end Tork.Cache
