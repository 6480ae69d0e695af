import Verif.Types
/-!
# Transactions of the datastore, statement by statement

`/repo/datastore/postgres/postgres.go`: `UpdateTask` (414-522), `UpdateJob` (732-782), `UpdateNode` (536-562), `UpdateScheduledJob` (1537-1566)
read a row `for update`, call the closure and write the row back, in a transaction of their own or in that of the caller (`WithTx`,
1615-1648). `DS.lean` models each transaction as one step. Here the statements of any number of transactions are interleaved.

Assumed of Postgres (isolation level READ COMMITTED, which `BeginTxx` with empty options gives): `select … for update` waits until no other
transaction has locked the row, locks it, and reads what was committed last (or what the transaction itself wrote); locks are kept until
the end of the transaction; what a transaction wrote is visible to others when it commits; an `insert` of an existing key fails; a `delete`
waits for the lock; a single statement is atomic. A transaction may be ended by the server or by a broken connection at any moment.
-/

namespace Tork.Tx

variable {K V R E : Type}

/-- A transaction: a sequence of rows read `for update` and written back; which rows, and what is written, depends on what was read. -/
inductive TP (K V R E : Type) : Type
  /-- `tx.Commit()`, `postgres.go:1641` -/
  | commit (r : R)
  /-- `select * from … where id = k for update`; `miss`: there is no such row; `f`: the closure `modify` (with the columns written,
  `update … set … where id = k`), which may refuse; the rest depends on the row read -/
  | touch (k : K) (miss : E) (f : V → Except E V) (next : V → TP K V R E)
  /-- the closure given to `WithTx` returns an error -/
  | fail (e : E)

/-- The committed rows. -/
abbrev Store (K V : Type) := K → Option V

def set [DecidableEq K] (s : Store K V) (k : K) (v : V) : Store K V := fun x => if x = k then some v else s x

/-- The transaction alone, on the rows `s`: its result and the rows afterwards. -/
def TP.go [DecidableEq K] : TP K V R E → Store K V → Except E (R × Store K V)
  | .commit r, s => .ok (r, s)
  | .touch k miss f next, s =>
    match s k with
    | none => .error miss
    | some v =>
      match f v with
      | .error e => .error e
      | .ok u => (next v).go (set s k u)
  | .fail e, _ => .error e

/-- What the caller sees. -/
def outcome (x : Except E (R × Store K V)) : Except E R :=
  match x with
  | .ok (r, _) => .ok r
  | .error e => .error e

/-- The rows afterwards: as before if the transaction failed. -/
def after (s : Store K V) (x : Except E (R × Store K V)) : Store K V :=
  match x with
  | .ok (_, s') => s'
  | .error _ => s

/-- What has happened, in the order of commits. -/
inductive Entry (K V R E : Type) : Type
  /-- caller `i` has run transaction `p` and has got `r` -/
  | tx (i : Nat) (p : TP K V R E) (r : Except E R)
  /-- a row was inserted -/
  | insert (k : K) (v : V)
  /-- a row was deleted -/
  | delete (k : K)
  /-- `select` without lock -/
  | read (k : K) (v : Option V)

/-- The entries happened one after the other, from rows `s` to rows `s'`. -/
inductive Serial [DecidableEq K] : Store K V → List (Entry K V R E) → Store K V → Prop
  | nil (s : Store K V) : Serial s [] s
  | tx {s s' : Store K V} {l : List (Entry K V R E)} (h : Serial s l s') (i : Nat) (p : TP K V R E) :
      Serial s (l ++ [.tx i p (outcome (p.go s'))]) (after s' (p.go s'))
  | insert {s s' : Store K V} {l : List (Entry K V R E)} (h : Serial s l s') (k : K) (v : V) (hk : s' k = none) :
      Serial s (l ++ [.insert k v]) (set s' k v)
  | delete {s s' : Store K V} {l : List (Entry K V R E)} (h : Serial s l s') (k : K) :
      Serial s (l ++ [.delete k]) (fun x => if x = k then none else s' x)
  | read {s s' : Store K V} {l : List (Entry K V R E)} (h : Serial s l s') (k : K) : Serial s (l ++ [.read k (s' k)]) s'

/-! ## Interleaved -/

/-- A transaction under way. -/
structure Th (K V R E : Type) where
  /-- the whole transaction -/
  orig : TP K V R E
  /-- what is left of it -/
  cur : TP K V R E
  /-- the row read by the last `select … for update`, until it is written back -/
  hand : Option V := none
  /-- what it has written -/
  buf : Store K V := fun _ => none

structure S (K V R E : Type) where
  rows : Store K V
  lock : K → Option Nat := fun _ => none
  th : Nat → Option (Th K V R E) := fun _ => none
  log : List (Entry K V R E) := []

/-- What a transaction sees: its own writes over the committed rows. -/
def over (s : Store K V) (b : Store K V) : Store K V := fun k => match b k with
  | some v => some v
  | none => s k

def upd {α : Type} (f : Nat → Option α) (i : Nat) (x : Option α) : Nat → Option α := fun k => if k = i then x else f k

/-- All locks of transaction `i` are given back. -/
def release (lock : K → Option Nat) (i : Nat) : K → Option Nat := fun k => if lock k = some i then none else lock k

/-- Transaction `i` ends; `e`: what is recorded. -/
def S.finish (s : S K V R E) (i : Nat) (rows : Store K V) (e : List (Entry K V R E)) : S K V R E :=
  { rows := rows, lock := release s.lock i, th := upd s.th i none, log := s.log ++ e }

inductive Step [DecidableEq K] (s : S K V R E) : S K V R E → Prop
  | begin (i : Nat) (p : TP K V R E) (hi : s.th i = none) : Step s { s with th := upd s.th i (some { orig := p, cur := p }) }
  /-- `select … for update` of a row that is there and that nobody else has locked -/
  | select (i : Nat) (t : Th K V R E) (k : K) (miss : E) (f : V → Except E V) (next : V → TP K V R E) (v : V) (hi : s.th i = some t)
      (hc : t.cur = .touch k miss f next) (hh : t.hand = none) (hl : s.lock k = none ∨ s.lock k = some i) (hv : over s.rows t.buf k = some v) :
      Step s { s with lock := fun x => if x = k then some i else s.lock x, th := upd s.th i (some { t with hand := some v }) }
  /-- there is no such row: the closure given to `WithTx` returns an error, rollback -/
  | missing (i : Nat) (t : Th K V R E) (k : K) (miss : E) (f : V → Except E V) (next : V → TP K V R E) (hi : s.th i = some t)
      (hc : t.cur = .touch k miss f next) (hh : t.hand = none) (hv : over s.rows t.buf k = none) :
      Step s (s.finish i s.rows [.tx i t.orig (.error miss)])
  /-- `update … set …` -/
  | update (i : Nat) (t : Th K V R E) (k : K) (miss : E) (f : V → Except E V) (next : V → TP K V R E) (v u : V) (hi : s.th i = some t)
      (hc : t.cur = .touch k miss f next) (hh : t.hand = some v) (hf : f v = .ok u) :
      Step s { s with th := upd s.th i (some { t with cur := next v, hand := none, buf := set t.buf k u }) }
  /-- `modify` returns an error: rollback, `postgres.go:1631-1639` -/
  | refuse (i : Nat) (t : Th K V R E) (k : K) (miss : E) (f : V → Except E V) (next : V → TP K V R E) (v : V) (e : E) (hi : s.th i = some t)
      (hc : t.cur = .touch k miss f next) (hh : t.hand = some v) (hf : f v = .error e) :
      Step s (s.finish i s.rows [.tx i t.orig (.error e)])
  | fail (i : Nat) (t : Th K V R E) (e : E) (hi : s.th i = some t) (hc : t.cur = .fail e) : Step s (s.finish i s.rows [.tx i t.orig (.error e)])
  | commit (i : Nat) (t : Th K V R E) (r : R) (hi : s.th i = some t) (hc : t.cur = .commit r) :
      Step s (s.finish i (over s.rows t.buf) [.tx i t.orig (.ok r)])
  /-- the server or the connection ends the transaction -/
  | abort (i : Nat) (t : Th K V R E) (hi : s.th i = some t) : Step s (s.finish i s.rows [])
  /-- `insert` in a transaction of its own (`CreateTask`) -/
  | insert (k : K) (v : V) (hk : s.rows k = none) : Step s { s with rows := set s.rows k v, log := s.log ++ [.insert k v] }
  /-- `delete` in a transaction of its own -/
  | delete (k : K) (hk : s.lock k = none) : Step s { s with rows := fun x => if x = k then none else s.rows x, log := s.log ++ [.delete k] }
  /-- `select` without lock, in a transaction of its own (`GetTaskByID`) -/
  | read (k : K) : Step s { s with log := s.log ++ [.read k (s.rows k)] }

inductive Reach [DecidableEq K] (r0 : Store K V) : S K V R E → Prop
  | init : Reach r0 { rows := r0 }
  | step {s s' : S K V R E} : Reach r0 s → Step s s' → Reach r0 s'

/-! ## Invariant -/

variable [DecidableEq K]

/-- Transaction `i` under way: on all rows that agree with the committed ones where it has locks, running the whole of it is running what is
left on what it sees. -/
structure ThOK (rows : Store K V) (lock : K → Option Nat) (i : Nat) (t : Th K V R E) : Prop where
  same : ∀ s' : Store K V, (∀ k, lock k = some i → s' k = rows k) → t.orig.go s' = t.cur.go (over s' t.buf)
  held : ∀ k, t.buf k ≠ none → lock k = some i
  hand : ∀ v, t.hand = some v → ∃ k miss f next, t.cur = .touch k miss f next ∧ lock k = some i ∧ over rows t.buf k = some v

structure Inv (r0 : Store K V) (s : S K V R E) : Prop where
  th : ∀ i t, s.th i = some t → ThOK s.rows s.lock i t
  locked : ∀ k i, s.lock k = some i → s.rows k ≠ none ∧ s.th i ≠ none
  serial : Serial r0 s.log s.rows

theorem over_none (s : Store K V) : over s (fun _ => none) = s := rfl

theorem over_set (s b : Store K V) (k : K) (v : V) : over s (set b k v) = set (over s b) k v := by
  funext x
  by_cases hx : x = k <;> simp [over, set, hx]

theorem release_some {lock : K → Option Nat} {i j : Nat} {k : K} : release lock i k = some j ↔ lock k = some j ∧ j ≠ i := by
  unfold release
  by_cases h : lock k = some i
  · simp [h]; intro h1; exact h1.symm
  · simp [h]; intro h1 h2; exact h (h2 ▸ h1)

/-- The rows change only where transaction `i` has no lock. -/
theorem ThOK.mono {rows rows' : Store K V} {lock lock' : K → Option Nat} {i : Nat} {t : Th K V R E} (h : ThOK rows lock i t)
    (hl : ∀ k, lock' k = some i ↔ lock k = some i) (hr : ∀ k, lock k = some i → rows' k = rows k) : ThOK rows' lock' i t := by
  refine ⟨fun s' hs => h.same s' fun k hk => (hs k ((hl k).2 hk)).trans (hr k hk), fun k hk => (hl k).2 (h.held k hk), fun v hv => ?_⟩
  obtain ⟨k, miss, f, next, hc, hk, ho⟩ := h.hand v hv
  refine ⟨k, miss, f, next, hc, (hl k).2 hk, ?_⟩
  unfold over at *
  cases hb : t.buf k with
  | some w => simpa [hb] using ho
  | none => simpa [hb, hr k hk] using ho

theorem inv_finish {r0 : Store K V} {s : S K V R E} (h : Inv r0 s) {i : Nat} {rows : Store K V}
    {e : List (Entry K V R E)} (hr : ∀ k, s.lock k ≠ some i → rows k = s.rows k) (hn : ∀ k, s.rows k ≠ none → rows k ≠ none)
    (hs : Serial r0 (s.log ++ e) rows) : Inv r0 (s.finish i rows e) := by
  refine ⟨fun j u hj => ?_, fun k j hk => ?_, hs⟩
  · by_cases hji : j = i
    · simp [S.finish, upd, hji] at hj
    · have hj' : s.th j = some u := by simpa [S.finish, upd, hji] using hj
      refine (h.th j u hj').mono (fun k => ?_) fun k hk => hr k ?_
      · simp [S.finish, release_some, hji]
      · rw [hk]; simp [hji]
  · have := release_some.1 hk
    refine ⟨hn k (h.locked k j this.1).1, ?_⟩
    simpa [S.finish, upd, this.2] using (h.locked k j this.1).2

theorem inv_step {r0 : Store K V} {s s' : S K V R E} (h : Inv r0 s) (hs : Step s s') : Inv r0 s' := by
  cases hs with
  | begin i p hi =>
    refine ⟨fun j u hj => ?_, fun k j hk => ?_, h.serial⟩
    · by_cases hji : j = i
      · simp only [upd, hji, if_pos, Option.some.injEq] at hj
        subst hj
        exact ⟨fun _ _ => rfl, fun k hk => absurd rfl hk, fun v hv => by cases hv⟩
      · exact h.th j u (by simpa [upd, hji] using hj)
    · have := h.locked k j hk
      refine ⟨this.1, ?_⟩
      by_cases hji : j = i
      · simp [upd, hji]
      · simpa [upd, hji] using this.2
  | select i t k miss f next v hi hc hh hl hv =>
    have ht := h.th i t hi
    refine ⟨fun j u hj => ?_, fun x j hx => ?_, h.serial⟩
    · by_cases hji : j = i
      · simp only [upd, hji, if_pos, Option.some.injEq] at hj
        subst hj hji
        refine ⟨fun s' hs => ht.same s' fun x hx => hs x ?_, fun x hx => ?_, fun w hw => ?_⟩
        · by_cases hxk : x = k <;> simp [hxk, hx]
        · by_cases hxk : x = k
          · simp [hxk]
          · simpa [hxk] using ht.held x hx
        · cases hw
          exact ⟨k, miss, f, next, hc, by simp, hv⟩
      · have hj' : s.th j = some u := by simpa [upd, hji] using hj
        refine (h.th j u hj').mono (fun x => ?_) fun _ _ => rfl
        by_cases hxk : x = k
        · subst hxk
          rcases hl with hl | hl <;> simp [hl] <;> exact fun hx => hji hx.symm
        · simp [hxk]
    · by_cases hxk : x = k
      · subst hxk
        simp only [if_pos, Option.some.injEq] at hx
        subst hx
        refine ⟨fun hn => ?_, by simp [upd]⟩
        rcases hl with hl | hl
        · have hb : t.buf x = none := by
            cases hb : t.buf x with
            | none => rfl
            | some w => have := ht.held x (by simp [hb]); rw [hl] at this; cases this
          have hn' : s.rows x = none := hn
          simp [over, hb, hn'] at hv
        · exact (h.locked x i hl).1 hn
      · have := h.locked x j (by simpa [hxk] using hx)
        refine ⟨this.1, ?_⟩
        by_cases hji : j = i
        · simp [upd, hji]
        · simpa [upd, hji] using this.2
  | update i t k miss f next v u hi hc hh hf =>
    have ht := h.th i t hi
    obtain ⟨k', miss', f', next', hc', hk, ho⟩ := ht.hand v hh
    rw [hc] at hc'
    cases hc'
    refine ⟨fun j w hj => ?_, fun x j hx => ?_, h.serial⟩
    · by_cases hji : j = i
      · simp only [upd, hji, if_pos, Option.some.injEq] at hj
        subst hj hji
        refine ⟨fun s' hs => ?_, fun x hx => ?_, fun w hw => by cases hw⟩
        · rw [ht.same s' hs, hc]
          have hv : over s' t.buf k = some v := by
            unfold over at *
            cases hb : t.buf k with
            | some w => simpa [hb] using ho
            | none => simpa [hb, hs k hk] using ho
          simp only [TP.go, hv, hf, over_set]
        · by_cases hxk : x = k
          · rw [hxk]; exact hk
          · exact ht.held x (by simpa [set, hxk] using hx)
      · exact h.th j w (by simpa [upd, hji] using hj)
    · have := h.locked x j hx
      refine ⟨this.1, ?_⟩
      by_cases hji : j = i
      · simp [upd, hji]
      · simpa [upd, hji] using this.2
  | missing i t k miss f next hi hc hh hv =>
    have hg : t.orig.go s.rows = .error miss := by
      rw [(h.th i t hi).same s.rows fun _ _ => rfl, hc]
      simp only [TP.go, hv]
    refine inv_finish h (fun _ _ => rfl) (fun _ hk => hk) ?_
    have := h.serial.tx i t.orig
    rwa [hg] at this
  | refuse i t k miss f next v e hi hc hh hf =>
    have ht := h.th i t hi
    obtain ⟨k', miss', f', next', hc', hk, ho⟩ := ht.hand v hh
    rw [hc] at hc'
    cases hc'
    have hg : t.orig.go s.rows = .error e := by
      rw [ht.same s.rows fun _ _ => rfl, hc]
      simp only [TP.go, ho, hf]
    refine inv_finish h (fun _ _ => rfl) (fun _ hk => hk) ?_
    have := h.serial.tx i t.orig
    rwa [hg] at this
  | fail i t e hi hc =>
    have hg : t.orig.go s.rows = .error e := by
      rw [(h.th i t hi).same s.rows fun _ _ => rfl, hc]
      rfl
    refine inv_finish h (fun _ _ => rfl) (fun _ hk => hk) ?_
    have := h.serial.tx i t.orig
    rwa [hg] at this
  | commit i t r hi hc =>
    have ht := h.th i t hi
    have hg : t.orig.go s.rows = .ok (r, over s.rows t.buf) := by
      rw [ht.same s.rows fun _ _ => rfl, hc]
      rfl
    refine inv_finish h (fun k hk => ?_) (fun k hk => ?_) ?_
    · unfold over
      cases hb : t.buf k with
      | none => rfl
      | some w => exact absurd (ht.held k (by simp [hb])) hk
    · unfold over
      cases hb : t.buf k <;> simp [hk]
    · have := h.serial.tx i t.orig
      rwa [hg] at this
  | abort i t hi =>
    refine inv_finish h (fun _ _ => rfl) (fun _ hk => hk) ?_
    simpa using h.serial
  | insert k v hk =>
    have hl : ∀ j, s.lock k ≠ some j := fun j hj => (h.locked k j hj).1 hk
    refine ⟨fun j u hj => (h.th j u hj).mono (fun _ => Iff.rfl) fun x hx => ?_, fun x j hx => ⟨?_, (h.locked x j hx).2⟩, h.serial.insert k v hk⟩
    · have : x ≠ k := fun hxk => hl j (hxk ▸ hx)
      simp [set, this]
    · have : x ≠ k := fun hxk => hl j (hxk ▸ hx)
      simpa [set, this] using (h.locked x j hx).1
  | delete k hk =>
    have hl : ∀ j, s.lock k ≠ some j := fun j hj => by rw [hk] at hj; cases hj
    refine ⟨fun j u hj => (h.th j u hj).mono (fun _ => Iff.rfl) fun x hx => ?_, fun x j hx => ⟨?_, (h.locked x j hx).2⟩, h.serial.delete k⟩
    · have : x ≠ k := fun hxk => hl j (hxk ▸ hx)
      simp [this]
    · have : x ≠ k := fun hxk => hl j (hxk ▸ hx)
      simpa [this] using (h.locked x j hx).1
  | read k => exact ⟨h.th, h.locked, h.serial.read k⟩

theorem inv_reach {r0 : Store K V} {s : S K V R E} (h : Reach r0 s) : Inv r0 s := by
  induction h with
  | init => exact ⟨(fun _ _ h => nomatch h), (fun _ _ h => nomatch h), Serial.nil _⟩
  | step _ hs ih => exact inv_step ih hs

end Tork.Tx
