import Verif.Cron
import Verif.ExecLemmas
/-!
# C40 — scheduled jobs
-/

namespace Tork.Cron
open Tork.Queues (upd)

/-- The events about one scheduled job, as "is it active". -/
def evs (c : List (Nat × ScheduledJobState)) (id : Nat) : List Bool :=
  c.filterMap fun e => if e.1 = id then some (e.2 = .active) else none

/-- Each event turns the entry on or off, ending in `last`. -/
def Alt (cur : Bool) : List Bool → Bool → Prop
  | [], last => cur = last
  | e :: es, last => e = !cur ∧ Alt e es last

theorem Alt.snoc {cur : Bool} {l : List Bool} {last : Bool} (h : Alt cur l (!last)) : Alt cur (l ++ [last]) last := by
  induction l generalizing cur with
  | nil => simp only [Alt] at h; simp [Alt, h]
  | cons e es ih => exact ⟨h.1, ih h.2⟩

theorem evs_append (a b : List (Nat × ScheduledJobState)) (id : Nat) : evs (a ++ b) id = evs a id ++ evs b id := by
  simp [evs, List.filterMap_append]
theorem evs_one (i id : Nat) (st : ScheduledJobState) : evs [(i, st)] id = if i = id then [decide (st = .active)] else [] := by
  unfold evs; simp only [List.filterMap]; split <;> simp_all
theorem evs_cons (i id : Nat) (st : ScheduledJobState) (es : List (Nat × ScheduledJobState)) :
    evs ((i, st) :: es) id = if i = id then decide (st = .active) :: evs es id else evs es id := by
  rw [show (i, st) :: es = [(i, st)] ++ es from rfl, evs_append, evs_one]; split <;> simp

theorem evs_nil (id : Nat) : evs [] id = [] := rfl

def isOn : Option ScheduledJobState → Bool
  | some .active => true
  | _ => false
theorem isOn_iff (v : Option ScheduledJobState) : isOn v = true ↔ v = some .active := by
  rcases v with _ | _ | _ <;> simp [isOn]

/-- The scheduled job is switched on in the datastore. -/
def St.on (s : St) (id : Nat) : Bool := isOn (s.db id)

structure Inv (s : St) : Prop where
  quiet : ∀ id, (∀ r st, s.req r ≠ some (.publish id st)) → Alt (s.m id).isSome (evs s.chan id) (s.on id)
  busy : ∀ r id st, s.req r = some (.publish id st) →
    Alt (s.m id).isSome (evs s.chan id) (!(s.on id)) ∧ s.on id = decide (st = .active)
  one : ∀ r r' q q', s.req r = some q → s.req r' = some q' → q.id = q'.id → r = r'
  flip : ∀ r id st, s.req r = some (.flip id st) → s.db id = some st
  delete : ∀ r id st, s.req r = some (.delete id st) → s.db id = some st
  used : ∀ id, s.used id = false → s.db id = none ∧ ∀ r q, s.req r = some q → q.id ≠ id

structure Ent (s : St) : Prop where
  mem : ∀ id k, s.m id = some k ↔ (k, id) ∈ s.entries
  key : ∀ k a b, (k, a) ∈ s.entries → (k, b) ∈ s.entries → a = b
  lt : ∀ k a, (k, a) ∈ s.entries → k < s.next
  nodup : s.entries.Nodup

theorem Ent.active {s : St} (h : Ent s) {id : Nat} (hm : s.m id = none) : Ent (handleActive s id) := by
  obtain ⟨h1, h2, h3, h4⟩ := h
  unfold handleActive
  constructor
  · intro i k
    simp only [upd, List.mem_append, List.mem_singleton, Prod.mk.injEq, ← h1]
    have h5 := h3 k i
    rw [← h1] at h5
    grind
  · intro k a b ha hb
    simp only [List.mem_append, List.mem_singleton, Prod.mk.injEq] at ha hb
    have := h3 k a; have := h3 k b; have := h2 k a b
    grind
  · intro k a ha
    simp only [List.mem_append, List.mem_singleton, Prod.mk.injEq] at ha
    have := h3 k a
    grind
  · rw [List.nodup_append]
    refine ⟨h4, by simp, ?_⟩
    intro a ha b hb
    have := h3 a.1 a.2 ha
    grind

theorem Ent.paused {s : St} (h : Ent s) (id : Nat) : Ent (handlePaused s id) := by
  obtain ⟨h1, h2, h3, h4⟩ := h
  unfold handlePaused
  cases hm : s.m id with
  | none => exact ⟨h1, h2, h3, h4⟩
  | some k =>
    have hk := (h1 id k).1 hm
    constructor
    · intro i k'
      simp only [upd, List.mem_filter, decide_eq_true_eq, ← h1]
      have := h2 k id i hk
      rw [← h1] at this
      grind
    · intro k' a b ha hb
      exact h2 k' a b ((List.mem_filter.1 ha).1) ((List.mem_filter.1 hb).1)
    · intro k' a ha
      exact h3 k' a ((List.mem_filter.1 ha).1)
    · exact h4.filter _

theorem boot_ent (s : St) (l : List Nat) (hl : l.Nodup) : Ent (boot s l) ∧ (boot s l).db = s.db ∧ (boot s l).req = s.req ∧
    (boot s l).used = s.used ∧ (boot s l).chan = [] ∧ ∀ id, ((boot s l).m id).isSome = true ↔ id ∈ l := by
  have key : ∀ (l : List Nat) (t : St), Ent t → l.Nodup → (∀ i ∈ l, t.m i = none) →
      Ent (l.foldl handleActive t) ∧ (l.foldl handleActive t).db = t.db ∧ (l.foldl handleActive t).req = t.req ∧
      (l.foldl handleActive t).used = t.used ∧ (l.foldl handleActive t).chan = t.chan ∧
      ∀ id, ((l.foldl handleActive t).m id).isSome = true ↔ id ∈ l ∨ (t.m id).isSome = true := by
    intro l
    induction l with
    | nil => intro t h _ _; exact ⟨h, rfl, rfl, rfl, rfl, by simp⟩
    | cons a l ih =>
      intro t h hn hm
      rw [List.nodup_cons] at hn
      have := ih (handleActive t a) (h.active (hm a List.mem_cons_self)) hn.2 (by
        intro i hi
        have h1 : i ≠ a := fun e => hn.1 (e ▸ hi)
        simp only [handleActive, upd, if_neg h1]
        exact hm i (List.mem_cons_of_mem _ hi))
      rw [List.foldl_cons]
      refine ⟨this.1, this.2.1, this.2.2.1, this.2.2.2.1, this.2.2.2.2.1, ?_⟩
      intro id
      rw [this.2.2.2.2.2 id]
      simp only [handleActive, upd, List.mem_cons]
      by_cases e : id = a <;> simp [e]
  have := key l { s with entries := [], m := fun _ => none, chan := [] }
    ⟨by simp, by simp, by simp, by simp⟩ hl (fun _ _ => rfl)
  refine ⟨this.1, this.2.1, this.2.2.1, this.2.2.2.1, this.2.2.2.2.1, ?_⟩
  intro id
  have := this.2.2.2.2.2 id
  unfold boot
  rw [this]; simp

theorem handle_fields (s : St) (e : Nat × ScheduledJobState) : (handle s e).db = s.db ∧ (handle s e).req = s.req ∧
    (handle s e).used = s.used ∧ (handle s e).chan = s.chan ∧
    ∀ id, ((handle s e).m id).isSome = if e.1 = id then decide (e.2 = .active) else (s.m id).isSome := by
  obtain ⟨i, st⟩ := e
  cases st
  · refine ⟨rfl, rfl, rfl, rfl, ?_⟩
    intro id
    simp only [handle, handleActive, upd]
    by_cases h : id = i
    · simp [h]
    · have h' : i ≠ id := fun e => h e.symm
      simp [h, h']
  · unfold handle
    simp only [handlePaused]
    cases hm : s.m i with
    | none =>
      refine ⟨rfl, rfl, rfl, rfl, ?_⟩
      intro id
      by_cases h : i = id
      · subst h; simp [hm]
      · simp [h]
    | some k =>
      refine ⟨rfl, rfl, rfl, rfl, ?_⟩
      intro id
      simp only [upd]
      by_cases h : id = i
      · simp [h]
      · have h' : i ≠ id := fun e => h e.symm
        simp [h, h']

/-- Replacing request `r`, which is about `id`, by `q`, also about `id` (or nothing), and the row of `id`. -/
theorem Inv.change {s : St} (h : Inv s) {r id : Nat} {q : Option Req} {v : Option ScheduledJobState} {us : Nat → Bool}
    (hq : ∀ x, q = some x → x.id = id) (hown : ∀ r' x, s.req r' = some x → x.id = id → r' = r)
    (hr : ∀ x, s.req r = some x → x.id = id)
    (hquiet : (∀ st, q ≠ some (.publish id st)) → Alt (s.m id).isSome (evs s.chan id) (isOn v))
    (hbusy : ∀ st, q = some (.publish id st) →
      Alt (s.m id).isSome (evs s.chan id) (!(isOn v)) ∧ isOn v = decide (st = .active))
    (hflip : ∀ st, q = some (.flip id st) → v = some st) (hdel : ∀ st, q = some (.delete id st) → v = some st)
    (hu : ∀ i, us i = false → s.used i = false ∧ i ≠ id) :
    Inv { s with db := upd s.db id v, req := upd s.req r q, used := us } := by
  obtain ⟨h1, h2, h3, h4, h5, h6⟩ := h
  constructor
  · intro i hi
    simp only [upd, St.on] at hi ⊢
    by_cases e : i = id
    · subst e
      rw [if_pos rfl]
      exact hquiet fun st hst => hi r st (by simpa using hst)
    · rw [if_neg e]
      refine h1 i fun r' st hst => ?_
      by_cases er : r' = r
      · subst er; exact e (hr _ hst)
      · exact hi r' st (by simpa [er] using hst)
  · intro r' i st hst
    simp only [upd, St.on] at hst ⊢
    by_cases er : r' = r
    · rw [if_pos er] at hst
      have : i = id := hq _ hst
      subst this
      rw [if_pos rfl]; exact hbusy st hst
    · rw [if_neg er] at hst
      have e : i ≠ id := fun e => er (hown r' _ hst e)
      rw [if_neg e]; exact h2 r' i st hst
  · intro r1 r2 q1 q2 e1 e2 e
    simp only [upd] at e1 e2
    by_cases a1 : r1 = r <;> by_cases a2 : r2 = r
    · rw [a1, a2]
    · rw [if_pos a1] at e1; rw [if_neg a2] at e2
      rw [a1, hown r2 q2 e2 (by rw [← e, hq q1 e1])]
    · rw [if_neg a1] at e1; rw [if_pos a2] at e2
      rw [a2, hown r1 q1 e1 (by rw [e, hq q2 e2])]
    · rw [if_neg a1] at e1; rw [if_neg a2] at e2
      exact h3 r1 r2 q1 q2 e1 e2 e
  · simp only [upd]
    intro r' i st hst
    by_cases er : r' = r
    · rw [if_pos er] at hst
      have : i = id := hq _ hst
      subst this; rw [if_pos rfl]; exact hflip st hst
    · rw [if_neg er] at hst
      have e : i ≠ id := fun e => er (hown r' _ hst e)
      rw [if_neg e]; exact h4 r' i st hst
  · simp only [upd]
    intro r' i st hst
    by_cases er : r' = r
    · rw [if_pos er] at hst
      have : i = id := hq _ hst
      subst this; rw [if_pos rfl]; exact hdel st hst
    · rw [if_neg er] at hst
      have e : i ≠ id := fun e => er (hown r' _ hst e)
      rw [if_neg e]; exact h5 r' i st hst
  · simp only [upd]
    intro i hi
    have := hu i hi
    have := h6 i this.1
    grind

theorem upd_self {α : Type} (f : Nat → α) (i : Nat) {v : α} (h : f i = v) : upd f i v = f := by
  funext j; simp only [upd]; split <;> simp_all

theorem inv_step {s s' : St} (h : Inv s) (he : Ent s) (st : Step true s s') : Inv s' ∧ Ent s' := by
  cases st with
  | create r id hr hu =>
    refine ⟨?_, he.1, he.2, he.3, he.4⟩
    have hx := h.used id hu
    have h1 := h.quiet id (fun r st hq => hx.2 r _ hq rfl)
    have hon : s.on id = false := by simp [St.on, hx.1, isOn]
    rw [hon] at h1
    refine h.change (r := r) (q := some (.publish id .active)) (v := some .active) (us := upd s.used id true) (by rintro _ ⟨⟩; rfl)
      (fun r' x hx' e => absurd e (hx.2 r' x hx')) (by rw [hr]; exact nofun) ?_ ?_ (by simp) (by simp) ?_
    · intro hq; exact absurd rfl (hq .active)
    · intro st hst; cases hst; exact ⟨by simpa [isOn] using h1, by simp [isOn]⟩
    · intro i hi; simp only [upd] at hi; split at hi <;> simp_all
  | askFlip r id st hr hd hq =>
    refine ⟨?_, he.1, he.2, he.3, he.4⟩
    have hq := hq rfl
    have h1 := h.quiet id (fun r st hq' => hq r _ hq' rfl)
    have := h.change (r := r) (id := id) (q := some (.flip id st)) (v := some st) (us := s.used) (by rintro _ ⟨⟩; rfl)
      (fun r' x hx' e => absurd e (hq r' x hx')) (by rw [hr]; exact nofun) (fun _ => by simpa [St.on, hd, isOn] using h1) (by simp) (by simp) (by simp)
      (fun i hi => ⟨hi, fun e => by rw [e] at hi; have := (h.used id hi).1; rw [hd] at this; cases this⟩)
    rwa [upd_self s.db id hd] at this
  | askDelete r id st hr hd hq =>
    refine ⟨?_, he.1, he.2, he.3, he.4⟩
    have hq := hq rfl
    have h1 := h.quiet id (fun r st hq' => hq r _ hq' rfl)
    have := h.change (r := r) (id := id) (q := some (.delete id st)) (v := some st) (us := s.used) (by rintro _ ⟨⟩; rfl)
      (fun r' x hx' e => absurd e (hq r' x hx')) (by rw [hr]; exact nofun) (fun _ => by simpa [St.on, hd, isOn] using h1) (by simp) (by simp) (by simp)
      (fun i hi => ⟨hi, fun e => by rw [e] at hi; have := (h.used id hi).1; rw [hd] at this; cases this⟩)
    rwa [upd_self s.db id hd] at this
  | flip r id st hr hd =>
    refine ⟨?_, he.1, he.2, he.3, he.4⟩
    have hst := h.flip r id st hr
    have hown : ∀ r' x, s.req r' = some x → x.id = id → r' = r := fun r' x hx e => h.one r' r _ _ hx hr e
    have h1 := h.quiet id (fun r' st' hq => by have := hown r' _ hq rfl; subst this; rw [hr] at hq; cases hq)
    refine h.change (r := r) (id := id) (q := some (.publish id (other st))) (v := some (other st)) (us := s.used)
      (by rintro _ ⟨⟩; rfl) hown (by rw [hr]; rintro _ ⟨⟩; rfl) (fun hq => absurd rfl (hq _)) ?_ (by simp) (by simp)
      (fun i hi => ⟨hi, fun e => by rw [e] at hi; have := (h.used id hi).1; rw [hst] at this; cases this⟩)
    intro st' hst'
    cases hst'
    simp only [St.on, hst] at h1
    cases st <;> exact ⟨by simpa [other, isOn] using h1, by simp [other, isOn]⟩
  | flipFails r id st hr hd =>
    have := h.flip r id st hr
    rw [hd] at this; cases this
  | delete r id st hr =>
    refine ⟨?_, he.1, he.2, he.3, he.4⟩
    have hst := h.delete r id st hr
    have hown : ∀ r' x, s.req r' = some x → x.id = id → r' = r := fun r' x hx e => h.one r' r _ _ hx hr e
    have h1 := h.quiet id (fun r' st' hq => by have := hown r' _ hq rfl; subst this; rw [hr] at hq; cases hq)
    have hu : ∀ i, s.used i = false → s.used i = false ∧ i ≠ id :=
      (fun i hi => ⟨hi, fun e => by rw [e] at hi; have := (h.used id hi).1; rw [hst] at this; cases this⟩)
    simp only [St.on, hst] at h1
    cases st with
    | active =>
      refine h.change (r := r) (id := id) (q := some (.publish id .paused)) (v := none) (us := s.used)
        (by rintro _ ⟨⟩; rfl) hown (by rw [hr]; rintro _ ⟨⟩; rfl) (fun hq => absurd rfl (hq _)) ?_ (by simp) (by simp) hu
      intro st' hst'
      cases hst'
      exact ⟨by simpa [isOn] using h1, by simp [isOn]⟩
    | paused =>
      exact h.change (r := r) (id := id) (q := none) (v := none) (us := s.used)
        (by exact nofun) hown (by rw [hr]; rintro _ ⟨⟩; rfl) (fun _ => by simpa [isOn] using h1) (by simp) (by simp) (by simp) hu
  | publish r id st hr =>
    refine ⟨?_, he.1, he.2, he.3, he.4⟩
    have hb := h.busy r id st hr
    have hown : ∀ r' x, s.req r' = some x → x.id = id → r' = r := fun r' x hx e => h.one r' r _ _ hx hr e
    have hs : Alt (s.m id).isSome (evs (s.chan ++ [(id, st)]) id) (s.on id) := by
      rw [evs_append, evs_one, if_pos rfl, ← hb.2]; exact hb.1.snoc
    have hev : ∀ i, i ≠ id → evs (s.chan ++ [(id, st)]) i = evs s.chan i := by
      intro i hi; rw [evs_append, evs_one, if_neg (Ne.symm hi), List.append_nil]
    have hreq : ∀ r' x, upd s.req r none r' = some x → s.req r' = some x ∧ x.id ≠ id := by
      intro r' x hx
      simp only [upd] at hx
      by_cases e : r' = r
      · rw [if_pos e] at hx; cases hx
      · rw [if_neg e] at hx; exact ⟨hx, fun e' => e (hown r' x hx e')⟩
    refine ⟨?_, ?_, ?_, ?_, ?_, ?_⟩
    · intro i hi
      by_cases e : i = id
      · subst e; exact hs
      · simp only [hev i e]
        refine h.quiet i fun r' st' hq => hi r' st' ?_
        have : r' ≠ r := fun e' => by subst e'; rw [hr] at hq; cases hq; exact e rfl
        simpa [upd, this] using hq
    · intro r' i st' hq
      have := hreq r' _ hq
      simp only [hev i this.2]
      exact h.busy r' i st' this.1
    · intro r1 r2 q1 q2 e1 e2 e
      exact h.one r1 r2 q1 q2 (hreq _ _ e1).1 (hreq _ _ e2).1 e
    · intro r' i st' hq; exact h.flip r' i st' (hreq _ _ hq).1
    · intro r' i st' hq; exact h.delete r' i st' (hreq _ _ hq).1
    · intro i hi
      exact ⟨(h.used i hi).1, fun r' q hq => (h.used i hi).2 r' q (hreq _ _ hq).1⟩
  | deliver e es hc =>
    obtain ⟨f1, f2, f3, f4, f5⟩ := handle_fields { s with chan := es } e
    have hon : (handle { s with chan := es } e).on = s.on := by funext i; simp only [St.on, f1]
    obtain ⟨i, st⟩ := e
    have halt : ∀ last id, Alt (s.m id).isSome (evs s.chan id) last →
        Alt ((handle { s with chan := es } (i, st)).m id).isSome (evs es id) last := by
      intro last id ha
      rw [f5 id]
      rw [hc, evs_cons] at ha
      by_cases hi : i = id
      · simp only [if_pos hi] at ha ⊢; exact ha.2
      · simp only [if_neg hi] at ha ⊢; exact ha
    refine ⟨⟨?_, ?_, ?_, ?_, ?_, ?_⟩, ?_⟩
    · intro id hq; rw [hon, f4]; rw [f2] at hq; exact halt _ _ (h.quiet id hq)
    · intro r id st' hq; rw [hon, f4]; rw [f2] at hq
      exact ⟨halt _ _ (h.busy r id st' hq).1, (h.busy r id st' hq).2⟩
    · rw [f2]; exact h.one
    · rw [f2, f1]; exact h.flip
    · rw [f2, f1]; exact h.delete
    · rw [f2, f1, f3]; exact h.used
    · have he' : Ent { s with chan := es } := ⟨he.1, he.2, he.3, he.4⟩
      cases st with
      | active =>
        refine he'.active ?_
        have hcur : ∃ last, Alt (s.m i).isSome (evs s.chan i) last := by
          by_cases hb : ∃ r st, s.req r = some (.publish i st)
          · obtain ⟨r, st, hb⟩ := hb; exact ⟨_, (h.busy r i st hb).1⟩
          · exact ⟨_, h.quiet i fun r st hq => hb ⟨r, st, hq⟩⟩
        obtain ⟨last, ha⟩ := hcur
        rw [hc, evs_cons, if_pos rfl] at ha
        have := ha.1
        show s.m i = none
        cases hm : s.m i with
        | none => rfl
        | some k => rw [hm] at this; simp at this
      | paused => exact he'.paused i
  | start l hl hm hr =>
    have hr := hr rfl
    obtain ⟨b0, b1, b2, b3, b4, b5⟩ := boot_ent s l hl
    refine ⟨⟨?_, ?_, ?_, ?_, ?_, ?_⟩, b0⟩
    · intro id _
      rw [b4, evs_nil]
      show ((boot s l).m id).isSome = (boot s l).on id
      have h1 := b5 id
      rw [hm] at h1
      rw [Bool.eq_iff_iff, h1]
      rw [St.on, b1, isOn_iff]
    all_goals rw [b2]
    · intro r id st hq; rw [hr] at hq; cases hq
    · intro r _ _ _ hq; rw [hr] at hq; cases hq
    · intro r _ _ hq; rw [hr] at hq; cases hq
    · intro r _ _ hq; rw [hr] at hq; cases hq
    · rw [b3, b1]
      exact h.used

theorem reach_inv {s : St} (r : Reach true s) : Inv s ∧ Ent s := by
  induction r with
  | init =>
    refine ⟨⟨?_, ?_, ?_, ?_, ?_, ?_⟩, ?_, ?_, ?_, ?_⟩ <;> simp [St.init, evs, Alt, St.on, isOn]
  | step _ st ih => exact inv_step ih.1 ih.2 st

/-- **C40.** As long as requests about one scheduled job do not overlap, a coordinator never holds more than one cron
entry for it; and once its requests and their events have been handled it holds exactly one if the scheduled job is
active and none if it is paused, deleted or was never created — after any history of create, pause, resume, delete
requests and coordinator starts. -/
theorem C40_entries {s : St} (r : Reach true s) (id : Nat) :
    (s.entries.filter (·.2 = id)).length ≤ 1 ∧
    ((∀ q, s.req q = none) → s.chan = [] →
      (s.entries.filter (·.2 = id)).length = if s.db id = some .active then 1 else 0) := by
  obtain ⟨h, he⟩ := reach_inv r
  have key : s.entries.filter (·.2 = id) = match s.m id with | none => [] | some k => [(k, id)] := by
    have hn : (s.entries.filter (·.2 = id)).Nodup := he.nodup.filter _
    have hm : ∀ x, x ∈ s.entries.filter (·.2 = id) ↔ s.m id = some x.1 ∧ x.2 = id := by
      intro x
      rw [List.mem_filter, decide_eq_true_eq, he.mem]
      constructor
      · rintro ⟨h1, h2⟩; exact ⟨h2 ▸ h1, h2⟩
      · rintro ⟨h1, h2⟩; exact ⟨by rw [← h2] at h1; exact h1, h2⟩
    generalize s.entries.filter (·.2 = id) = l at hn hm
    cases hk : s.m id with
    | none =>
      cases l with
      | nil => rfl
      | cons a l => have := (hm a).1 List.mem_cons_self; rw [hk] at this; simp at this
    | some k =>
      cases l with
      | nil => have := (hm (k, id)).2 ⟨hk, rfl⟩; simp at this
      | cons a l =>
        have ha := (hm a).1 List.mem_cons_self
        rw [hk] at ha
        have ha' : a = (k, id) := by cases a; simp_all
        cases l with
        | nil => simp [ha']
        | cons b l =>
          have hb := (hm b).1 (by simp)
          rw [hk] at hb
          have hb' : b = (k, id) := by cases b; simp_all
          rw [ha', hb'] at hn
          simp at hn
  constructor
  · rw [key]; cases s.m id <;> simp
  · intro hq hc
    have h1 := h.quiet id (by intro r st; rw [hq r]; simp)
    rw [hc, evs_nil] at h1
    have h1 : (s.m id).isSome = s.on id := h1
    rw [key]
    have h2 := isOn_iff (s.db id)
    unfold St.on at h1
    cases hm : s.m id <;> rw [hm] at h1 <;> simp at h1 <;> rw [h1] at h2 <;> simp at h2 <;> simp [h2]

/-- **C40 (concurrent requests).** Two resume requests for the same scheduled job that overlap leave two entries, and
only one of them is removed by the next pause: the paused scheduled job keeps firing. -/
theorem C40_overlapping_resume_leaks :
    ∃ s, Reach false s ∧ (∀ q, s.req q = none) ∧ s.chan = [] ∧ s.db 1 = some .paused ∧
      (s.entries.filter (·.2 = 1)).length = 1 := by
  let s0 : St := St.init
  have r1 := (Reach.init (seq := false)).step (.create _ 0 1 rfl rfl)
  have r2 := r1.step (.publish _ 0 1 .active rfl)
  have r3 := r2.step (.deliver _ (1, .active) [] rfl)
  have r4 := r3.step (.askFlip _ 0 1 .active rfl rfl (by simp))
  have r5 := r4.step (.flip _ 0 1 .active rfl (by simp [upd, handle, handleActive]))
  have r6 := r5.step (.publish _ 0 1 .paused rfl)
  have r7 := r6.step (.deliver _ (1, .paused) [] rfl)
  -- two resumes
  have r8 := r7.step (.askFlip _ 0 1 .paused rfl rfl (by simp))
  have r9 := r8.step (.askFlip _ 2 1 .paused rfl rfl (by simp))
  have r10 := r9.step (.flip _ 0 1 .paused rfl (by exact nofun))
  have r11 := r10.step (.flip _ 2 1 .paused rfl (by exact nofun))
  have r12 := r11.step (.publish _ 0 1 .active rfl)
  have r13 := r12.step (.publish _ 2 1 .active rfl)
  have r14 := r13.step (.deliver _ (1, .active) _ rfl)
  have r15 := r14.step (.deliver _ (1, .active) [] rfl)
  -- a pause
  have r16 := r15.step (.askFlip _ 0 1 .active rfl rfl (by simp))
  have r17 := r16.step (.flip _ 0 1 .active rfl (by exact nofun))
  have r18 := r17.step (.publish _ 0 1 .paused rfl)
  have r19 := r18.step (.deliver _ (1, .paused) [] rfl)
  refine ⟨_, r19, ?_, rfl, rfl, rfl⟩
  intro q
  by_cases h0 : q = 0
  · subst h0; rfl
  · by_cases h2 : q = 2
    · subst h2; rfl
    · show (if q = _ then _ else _) = none
      simp [upd, handle, handleActive, handlePaused, h0, h2, St.init]

/-- A history that meets the hypotheses of `C40_entries`: created, paused, resumed. -/
example : ∃ s, Reach true s ∧ (∀ q, s.req q = none) ∧ s.chan = [] ∧ s.db 1 = some .active := by
  have r1 := (Reach.init (seq := true)).step (.create _ 0 1 rfl rfl)
  have r2 := r1.step (.publish _ 0 1 .active rfl)
  have r3 := r2.step (.deliver _ (1, .active) [] rfl)
  refine ⟨_, r3, ?_, rfl, rfl⟩
  intro q
  by_cases h0 : q = 0
  · subst h0; rfl
  · simp [upd, handle, handleActive, h0, St.init]

end Tork.Cron

namespace Tork
open Prog

/-- **C40 (firing).** One firing of a cron entry, with datastore and broker working, creates exactly one new job: in
state PENDING at position 0, with a fresh identifier, the definition of the scheduled job and a reference to it; and
publishes exactly that job to be started. -/
theorem C40_firing (sj : ScheduledJob) (s : Sys) (h0 : s.next ≠ 0) (hf : s.ds.job? s.next = none) :
    ∃ j, let s' := ((fireScheduled sj).exec s).2
      s'.ds = { s.ds with jobs := s.ds.jobs ++ [jobRow s.ds.guest j] } ∧ s'.out = s.out ++ [.job j] ∧
      j.id = s.next ∧ j.state = .pending ∧ j.position = 0 ∧ j.taskCount = sj.tasks.length ∧
      j.name = sj.name ∧ j.description = sj.description ∧ j.tasks = sj.tasks ∧ j.inputs = sj.inputs ∧
      j.secrets = sj.secrets ∧ j.tags = sj.tags ∧ j.output = sj.output ∧ j.webhooks = sj.webhooks ∧
      j.permissions = sj.permissions ∧ j.autoDelete = sj.autoDelete ∧ j.createdBy = sj.createdBy ∧
      j.context.inputs = sj.inputs ∧ j.context.secrets = sj.secrets ∧ (j.schedule.map (·.id)) = some sj.id := by
  have hx : (fireScheduled sj).exec s = (some (), ((s.ticked.drawn.withDs
      { s.ds with jobs := s.ds.jobs ++ [jobRow s.ds.guest (scheduledInstance s.next s.clock sj)] }).send
      [.job (scheduledInstance s.next s.clock sj)])) := by
    unfold fireScheduled
    simp only [bind_eq, pure_eq]
    rw [exec_now, exec_uuid, exec_tx (s := s.ticked.drawn) (createJob_of (by exact h0) (by exact hf))]
    rw [exec_pub, exec_ret]
    rfl
  refine ⟨scheduledInstance s.next s.clock sj, ?_⟩
  rw [hx]
  exact ⟨rfl, rfl, rfl, rfl, rfl, rfl, rfl, rfl, rfl, rfl, rfl, rfl, rfl, rfl, rfl, rfl, rfl, rfl, rfl, rfl⟩

/-- **C40 (defaults are lost).** The `defaults` of a scheduled job (retry, limits, timeout, queue, priority) do not reach
the jobs it creates. -/
theorem C40_firing_drops_defaults (sj : ScheduledJob) (d : Option JobDefaults) (s : Sys) :
    (fireScheduled { sj with defaults := d }).exec s = (fireScheduled sj).exec s ∧
    ∀ m ∈ ((fireScheduled sj).exec s).2.out, m ∈ s.out ∨ ∃ j, m = .job j ∧ j.defaults = none := by
  refine ⟨rfl, ?_⟩
  unfold fireScheduled
  simp only [bind_eq, pure_eq]
  rw [exec_now, exec_uuid]
  cases hc : createJob (scheduledInstance s.ticked.next s.clock sj) s.ticked.drawn.ds with
  | error e =>
    rw [exec_tx_err (s := s.ticked.drawn) hc, exec_pub, exec_ret]
    intro m hm
    simp only [Sys.send_out, Sys.drawn_out, Sys.ticked_out, List.mem_append, List.mem_singleton] at hm
    rcases hm with hm | hm
    · exact .inl hm
    · exact .inr ⟨_, hm, rfl⟩
  | ok x =>
    rw [exec_tx (s := s.ticked.drawn) (g := x.1) (ds' := x.2) hc, exec_pub, exec_ret]
    intro m hm
    simp only [Sys.send_out, Sys.withDs_out, Sys.drawn_out, Sys.ticked_out, List.mem_append, List.mem_singleton] at hm
    rcases hm with hm | hm
    · exact .inl hm
    · exact .inr ⟨_, hm, rfl⟩

end Tork
