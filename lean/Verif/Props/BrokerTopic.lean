import Verif.BrokerTopic
import Verif.Props.Wildcard
/-!
# C32 — events reach exactly the matching subscribers, once, in order
-/

namespace Tork.Topics
open Tork.Queues (upd)
open Tork.Wildcard (Matches)

/-- Events handed to topic object `o`, in order. -/
def handedTo {ε : Type} (o : Nat) : List (Lbl ε) → List ε
  | [] => []
  | .handed _ o' e :: tr => if o' = o then e :: handedTo o tr else handedTo o tr
  | _ :: tr => handedTo o tr

/-- Events the handler of subscription `i` was called with, in order. -/
def deliveredTo {ε : Type} (i : Nat) : List (Lbl ε) → List ε
  | [] => []
  | .delivered j e :: tr => if j = i then e :: deliveredTo i tr else deliveredTo i tr
  | _ :: tr => deliveredTo i tr

/-- Topic objects publisher `p` handed an event to. -/
def handedBy {ε : Type} (p : Nat) : List (Lbl ε) → List Nat
  | [] => []
  | .handed p' o _ :: tr => if p' = p then o :: handedBy p tr else handedBy p tr
  | _ :: tr => handedBy p tr

/-- The event (at most one) that topic `o` has accepted but not yet passed to subscription `i`. -/
def pendingFor {ε : Type} (i o : Nat) (s : St ε) : List ε :=
  match (s.objs o).cur with
  | .idle => []
  | .received e => [e]
  | .calling e rest => if i ∈ rest then [e] else []

/-- the topic object a subscription is attached to -/
def onObj : SubSt → Option Nat
  | .on _ o => some o
  | _ => none

structure Inv {ε : Type} (s : St ε) : Prop where
  nodup : ∀ o, (s.objs o).subs.Nodup
  mem : ∀ o i, i ∈ (s.objs o).subs ↔ onObj (s.sub i) = some o
  name : ∀ i o pat, s.sub i = .on pat o → (s.objs o).name = pat ∧ o < s.n
  app : ∀ i o pat, s.sub i = .append pat o → (s.objs o).name = pat ∧ o < s.n
  reg : ∀ o pat, s.map pat = some o → (s.objs o).name = pat ∧ o < s.n
  rest : ∀ o e r, (s.objs o).cur = .calling e r → r.Nodup ∧ ∀ i ∈ r, i ∈ (s.objs o).subs
  fresh : ∀ o, s.n ≤ o → (s.objs o).subs = [] ∧ (s.objs o).cur = .idle
  todo : ∀ p tn e todo seen, s.pub p = some ⟨tn, e, todo, seen⟩ → ∀ o ∈ todo, o < s.n
  seen : ∀ p tn e todo seen, s.pub p = some ⟨tn, e, todo, seen⟩ → ∀ o ∈ seen, o < s.n

theorem inv_init {ε : Type} : Inv (St.init (ε := ε)) := by
  constructor <;> simp [St.init, onObj]

theorem inv_step {ε : Type} {s s' : St ε} {l : Lbl ε} (h : Inv s) (st : Step s l s') : Inv s' := by
  obtain ⟨h1, h2, h3, h4, h5, h6, h7, h8, h9⟩ := h
  have h10 : ∀ p tn e o todo seen, s.pub p = some ⟨tn, e, o :: todo, seen⟩ → o < s.n :=
    fun p tn e o todo seen h => h8 _ _ _ _ _ h o (by simp)
  cases st <;> constructor <;> grind [upd, Cur.unlocked, onObj]

theorem inv_run {ε : Type} {s s' : St ε} {tr : List (Lbl ε)} (h : Inv s) (r : Run s tr s') : Inv s' := by
  induction r with
  | nil => exact h
  | snoc _ st ih => exact inv_step ih st

theorem on_step {ε : Type} {s s' : St ε} {l : Lbl ε} {i o : Nat} {pat : Bytes} (h : s.sub i = .on pat o)
    (st : Step s l s') : s'.sub i = .on pat o := by
  cases st <;> grind [upd]

theorem pending_step {ε : Type} {s s' : St ε} {l : Lbl ε} {i o : Nat} {pat : Bytes} (hi : Inv s) (h : s.sub i = .on pat o)
    (st : Step s l s') : pendingFor i o s ++ handedTo o [l] = deliveredTo i [l] ++ pendingFor i o s' := by
  obtain ⟨h1, h2, h3, h4, h5, h6, h7, h8, h9⟩ := hi
  have hm : i ∈ (s.objs o).subs := by grind [onObj]
  cases st with
  | call o' e' i' rest' hc =>
    have h6' := h6 _ _ _ hc
    have hm' : i' ∈ (s.objs o').subs := h6'.2 _ (by simp)
    have ho : i' = i → o' = o := by grind [onObj]
    simp only [handedTo, deliveredTo, pendingFor]
    by_cases hoo : o = o'
    · subst hoo
      simp only [upd, if_true, hc]
      grind
    · simp only [upd, if_neg hoo]
      grind
  | _ => simp only [handedTo, deliveredTo, pendingFor]; grind [upd, Cur.unlocked, onObj]

theorem handedTo_append {ε : Type} (o : Nat) (a b : List (Lbl ε)) : handedTo o (a ++ b) = handedTo o a ++ handedTo o b := by
  induction a with
  | nil => rfl
  | cons l a ih => cases l <;> simp only [List.cons_append, handedTo, ih]; split <;> simp

theorem deliveredTo_append {ε : Type} (o : Nat) (a b : List (Lbl ε)) :
    deliveredTo o (a ++ b) = deliveredTo o a ++ deliveredTo o b := by
  induction a with
  | nil => rfl
  | cons l a ih => cases l <;> simp only [List.cons_append, deliveredTo, ih]; split <;> simp

theorem handedBy_append {ε : Type} (o : Nat) (a b : List (Lbl ε)) : handedBy o (a ++ b) = handedBy o a ++ handedBy o b := by
  induction a with
  | nil => rfl
  | cons l a ih => cases l <;> simp only [List.cons_append, handedBy, ih]; split <;> simp

/-- **C32 (exactly once, in order).** From any reachable state in which subscription `i` is on topic `o`, in every
interleaving: the events topic `o` accepts are passed to the subscription's handler exactly once each, in the order in
which they were accepted; at most one accepted event is outstanding. -/
theorem C32_in_order_exactly_once {ε : Type} (s s' : St ε) (tr₀ tr : List (Lbl ε)) (i o : Nat) (pat : Bytes)
    (h₀ : Run St.init tr₀ s) (hon : s.sub i = .on pat o) (r : Run s tr s') :
    pendingFor i o s ++ handedTo o tr = deliveredTo i tr ++ pendingFor i o s' ∧ s'.sub i = .on pat o ∧
      (s.objs o).name = pat ∧ (pendingFor i o s').length ≤ 1 := by
  have hi := inv_run inv_init h₀
  suffices h : pendingFor i o s ++ handedTo o tr = deliveredTo i tr ++ pendingFor i o s' ∧ s'.sub i = .on pat o by
    refine ⟨h.1, h.2, (hi.name _ _ _ hon).1, ?_⟩
    unfold pendingFor
    split <;> (try split) <;> simp
  clear h₀
  induction r with
  | nil => exact ⟨by simp [handedTo, deliveredTo], hon⟩
  | @snoc b c tr l r st ih =>
    obtain ⟨e, hs⟩ := ih
    refine ⟨?_, on_step hs st⟩
    rw [handedTo_append, deliveredTo_append, ← List.append_assoc, e, List.append_assoc, List.append_assoc,
      pending_step (inv_run hi r) hs st]

/-- Publisher `p`, started with `todo`, has handed its event to `H` so far. -/
structure Visited {ε : Type} (p : Nat) (tn : Bytes) (e : ε) (todo0 H : List Nat) (s : St ε) : Prop where
  run : ∃ todo seen, s.pub p = some ⟨tn, e, todo, seen⟩ ∧ todo.Nodup ∧ (∀ o ∈ todo, o ∉ seen) ∧
    (∀ o ∈ todo0, o ∈ todo ∨ o ∈ seen) ∧ (∀ o ∈ H, o ∈ seen) ∧
    (∀ o ∈ seen, o ∈ H ↔ Wildcard.match (s.objs o).name tn = true)
  nodup : H.Nodup

theorem count_one {l : List Nat} (h : l.Nodup) {a : Nat} (ha : a ∈ l) : l.count a = 1 := by
  have h1 := List.nodup_iff_count.1 h a
  have h2 := List.count_pos_iff.2 ha
  omega

theorem visited_step {ε : Type} {p : Nat} {tn : Bytes} {e : ε} {todo0 H : List Nat} {s s' : St ε} {l : Lbl ε}
    (hi : Inv s) (h : Visited p tn e todo0 H s) (st : Step s l s') (hr : l ≠ .returned p) :
    Visited p tn e todo0 (H ++ handedBy p [l]) s' ∧ ∀ o e', l = .handed p o e' → e' = e := by
  obtain ⟨⟨todo, seen, hp, h1, h2, h3, h4, h5⟩, h6⟩ := h
  have hn := hi.seen _ _ _ _ _ hp
  cases st with
  | pubLate q tn' e' todo' seen' pat o' hq hm hnt hns =>
    by_cases hpq : p = q
    · subst hpq
      rw [hq] at hp; cases hp
      refine ⟨⟨⟨todo ++ [o'], seen, ?_⟩, ?_⟩, ?_⟩ <;> (try simp only [handedBy, List.append_nil]) <;> grind [upd]
    · refine ⟨⟨⟨todo, seen, ?_⟩, ?_⟩, ?_⟩ <;> (try simp only [handedBy, List.append_nil]) <;> grind [upd]
  | pubSkip q tn' e' o' todo' seen' hq hm =>
    by_cases hpq : p = q
    · subst hpq
      rw [hq] at hp; cases hp
      refine ⟨⟨⟨todo', o' :: seen, ?_⟩, ?_⟩, ?_⟩ <;> (try simp only [handedBy, List.append_nil]) <;> grind [upd]
    · refine ⟨⟨⟨todo, seen, ?_⟩, ?_⟩, ?_⟩ <;> (try simp only [handedBy, List.append_nil]) <;> grind [upd]
  | pubHand q tn' e' o' todo' seen' hq hm hc =>
    by_cases hpq : p = q
    · subst hpq
      rw [hq] at hp; cases hp
      refine ⟨⟨⟨todo', o' :: seen, ?_⟩, ?_⟩, ?_⟩ <;> (try simp only [handedBy, if_true]) <;> grind [upd]
    · refine ⟨⟨⟨todo, seen, ?_⟩, ?_⟩, ?_⟩ <;> (try simp only [handedBy, if_neg (Ne.symm hpq), List.append_nil]) <;> grind [upd]
  | subCreate i pat hs =>
    refine ⟨⟨⟨todo, seen, ?_⟩, ?_⟩, ?_⟩ <;> (try simp only [handedBy, List.append_nil]) <;> grind [upd]
  | _ =>
    refine ⟨⟨⟨todo, seen, ?_⟩, ?_⟩, ?_⟩ <;> (try simp only [handedBy, List.append_nil]) <;> grind [upd]

/-- **C32 (exactly the matching ones).** Take a `PublishEvent` call of `p` from just after it started (the state `s₁`,
all registered topics still to visit) to its return, in every interleaving: it hands its event exactly once to every
topic registered at the start whose pattern matches the event's topic name, to no topic whose pattern does not match,
and it hands out no other event. Together with `C32_in_order_exactly_once` this says which handlers are called. -/
theorem C32_reaches_exactly_the_matching {ε : Type} (s₁ s₂ : St ε) (tr₀ tr : List (Lbl ε)) (p : Nat) (tn tn' : Bytes) (e e' : ε)
    (todo seen : List Nat) (h₀ : Run St.init tr₀ s₁) (hstart : s₁.pub p = some ⟨tn, e, todo, []⟩) (hnd : todo.Nodup)
    (hreg : ∀ o, o ∈ todo ↔ ∃ pat, s₁.map pat = some o)
    (r : Run s₁ tr s₂) (hnr : Lbl.returned p ∉ tr) (hend : s₂.pub p = some ⟨tn', e', [], seen⟩) :
    (∀ pat o, s₁.map pat = some o → (handedBy p tr).count o = 1 ∧ Matches pat tn ∨ (handedBy p tr).count o = 0 ∧ ¬ Matches pat tn) ∧
    (∀ o ∈ handedBy p tr, (handedBy p tr).count o = 1 ∧ Matches (s₂.objs o).name tn) ∧
    (∀ o x, Lbl.handed p o x ∈ tr → x = e) := by
  have hi := inv_run inv_init h₀
  have key : Visited p tn e todo (handedBy p tr) s₂ ∧ (∀ o x, Lbl.handed p o x ∈ tr → x = e) ∧
      ∀ o, o < s₁.n → (s₂.objs o).name = (s₁.objs o).name ∧ o < s₂.n := by
    clear hend h₀
    induction r with
    | nil =>
      refine ⟨⟨⟨todo, [], hstart, hnd, by simp, by simp, by simp [handedBy], by simp⟩, by simp [handedBy]⟩, by simp, ?_⟩
      intro o ho; exact ⟨rfl, ho⟩
    | @snoc b c tr l r st ih =>
      obtain ⟨hv, he, hnm⟩ := ih (fun h => hnr (List.mem_append_left _ h))
      have hl : l ≠ .returned p := fun h => hnr (by subst h; simp)
      obtain ⟨hv', he'⟩ := visited_step (inv_run hi r) hv st hl
      rw [handedBy_append]
      refine ⟨hv', ?_, ?_⟩
      · intro o x hx
        rcases List.mem_append.1 hx with hx | hx
        · exact he o x hx
        · exact he' o x (List.mem_singleton.1 hx).symm
      · intro o ho
        obtain ⟨n1, n2⟩ := hnm o ho
        cases st <;> grind [upd]
  obtain ⟨⟨⟨todo', seen', hp, _, _, h3, h4, h5⟩, h6⟩, he, hnm⟩ := key
  rw [hend] at hp
  simp only [Option.some.injEq, Publishing.mk.injEq] at hp
  obtain ⟨rfl, rfl, rfl, rfl⟩ := hp
  refine ⟨?_, ?_, he⟩
  · intro pat o ho
    have hr := hi.reg o pat ho
    have hs : o ∈ seen := by
      rcases h3 o ((hreg o).2 ⟨pat, ho⟩) with h | h
      · simp at h
      · exact h
    have hm := h5 o hs
    rw [(hnm o hr.2).1, hr.1, Wildcard.C24_wildcard_match_iff] at hm
    by_cases hM : Matches pat tn'
    · exact .inl ⟨count_one h6 (hm.2 hM), hM⟩
    · exact .inr ⟨List.count_eq_zero_of_not_mem (fun h => hM (hm.1 h)), hM⟩
  · intro o ho
    have hm := (h5 o (h4 o ho)).1 ho
    rw [Wildcard.C24_wildcard_match_iff] at hm
    exact ⟨count_one h6 ho, hm⟩

/-- **C32 (progress).** An accepted event can always be passed on: the topic can take a step towards the handler. -/
theorem C32_not_stuck {ε : Type} (s : St ε) (o : Nat) (h : (s.objs o).cur ≠ .idle) : ∃ l s', Step s l s' ∧
    (∀ i e, (s.objs o).cur = .calling e (i :: []) → l = .delivered i e) := by
  cases hc : (s.objs o).cur with
  | idle => exact absurd hc h
  | received e => exact ⟨_, _, .lock s o e hc, by intro i e' h'; simp at h'⟩
  | calling e rest =>
    cases rest with
    | nil => exact ⟨_, _, .unlock s o e hc, by intro i e' h'; simp at h'⟩
    | cons i rest =>
      refine ⟨_, _, .call s o e i rest hc, ?_⟩
      intro i' e' h'
      simp only [Cur.calling.injEq, List.cons.injEq] at h'
      obtain ⟨rfl, rfl, _⟩ := h'
      rfl

/-! ### Non-vacuity: one subscriber to `job.*`, one event -/

/-- the bytes of `job.*`, `job.completed` -/
def patEx : Bytes := "job.*".toUTF8.data.toList
def topicEx : Bytes := "job.completed".toUTF8.data.toList

example : ∃ (tr : List (Lbl Nat)) (s : St Nat), Run St.init tr s ∧ s.sub 0 = .on patEx 0 ∧ deliveredTo 0 tr = [7] ∧
    handedTo 0 tr = [7] ∧ handedBy 5 tr = [0] := by
  let s0 : St Nat := St.init
  let s1 : St Nat := { s0 with sub := upd s0.sub 0 (.create patEx) }
  let s2 : St Nat := { s1 with objs := upd s1.objs s1.n ⟨patEx, [], .idle⟩, n := s1.n + 1, map := upd s1.map patEx (some s1.n),
                               sub := upd s1.sub 0 (.append patEx s1.n) }
  let s3 : St Nat := { s2 with objs := upd s2.objs 0 { s2.objs 0 with subs := (s2.objs 0).subs ++ [0] }, sub := upd s2.sub 0 (.on patEx 0) }
  let s4 : St Nat := { s3 with pub := upd s3.pub 5 (some ⟨topicEx, 7, [0], []⟩) }
  let s5 : St Nat := { s4 with pub := upd s4.pub 5 (some ⟨topicEx, 7, [], [0]⟩), objs := upd s4.objs 0 { s4.objs 0 with cur := .received 7 } }
  let s6 : St Nat := { s5 with objs := upd s5.objs 0 { s5.objs 0 with cur := .calling 7 (s5.objs 0).subs } }
  let s7 : St Nat := { s6 with objs := upd s6.objs 0 { s6.objs 0 with cur := .calling 7 [] } }
  have r1 : Run s0 [.tau] s1 := .snoc (.nil s0) (.subMissing s0 0 patEx rfl rfl)
  have r2 : Run s0 [.tau, .tau] s2 := .snoc r1 (.subCreate s1 0 patEx rfl)
  have r3 : Run s0 [.tau, .tau, .subscribed 0 patEx] s3 := .snoc r2 (.subAppend s2 0 patEx 0 rfl trivial)
  have r4 : Run s0 ([.tau, .tau, .subscribed 0 patEx] ++ [.tau]) s4 := by
    refine .snoc r3 (.pubStart s3 5 topicEx 7 [0] rfl (by simp) ?_)
    intro o
    simp only [s3, s2, s1, s0, St.init, upd, List.mem_singleton]
    constructor
    · rintro rfl; exact ⟨patEx, by simp⟩
    · rintro ⟨pat, h⟩; grind
  have hm : Wildcard.match patEx topicEx = true := by decide +kernel
  have r5 := Run.snoc r4 (.pubHand s4 5 topicEx 7 0 [] [] rfl hm rfl)
  have r6 := Run.snoc r5 (.lock s5 0 7 rfl)
  have r7 := Run.snoc r6 (.call s6 0 7 0 [] rfl)
  refine ⟨_, _, r7, rfl, ?_, ?_, ?_⟩ <;> simp [deliveredTo, handedTo, handedBy]

end Tork.Topics
