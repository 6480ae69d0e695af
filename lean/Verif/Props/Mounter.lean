import Verif.Mounter
/-!
# C51 — mounts are released by the mounter that mounted them
-/

namespace Tork.Mounter
open Tork.Queues (upd)

structure Inv (reg : String → Option Nat) (s : St) : Prop where
  one : ∀ g g' p p', s.pc g = some p → s.pc g' = some p' → p.id = p'.id → g = g'
  fresh : ∀ id, s.used id = false → s.mapping id = none ∧ s.calls id = [] ∧ ∀ g p, s.pc g = some p → p.id ≠ id
  found : ∀ g id ty x, s.pc g = some (.found id ty x) → reg ty = some x ∧ s.mapping id = none ∧ s.calls id = []
  recorded : ∀ g id ty x, s.pc g = some (.recorded id ty x) → reg ty = some x ∧ s.mapping id = some x ∧ s.calls id = []
  owner : ∀ g id x, s.pc g = some (.owner id x) → s.mapping id = some x ∧ ∃ ty, reg ty = some x ∧ s.calls id = [.mount ty x]
  forgotten : ∀ g id x, s.pc g = some (.forgotten id x) → s.mapping id = none ∧ ∃ ty, reg ty = some x ∧ s.calls id = [.mount ty x]
  quiet : ∀ id, (∃ g p, s.pc g = some p ∧ p.id = id) ∨ (s.calls id = [] ∧ s.mapping id = none) ∨
    (∃ ty x, reg ty = some x ∧ s.calls id = [.mount ty x] ∧ s.mapping id = some x) ∨
    (∃ ty x, reg ty = some x ∧ s.calls id = [.mount ty x, .unmount x] ∧ s.mapping id = none)

theorem inv_step {reg : String → Option Nat} {s s' : St} (h : Inv reg s) (st : Step reg s s') : Inv reg s' := by
  obtain ⟨h1, h2, h3, h4, h5, h6, h7⟩ := h
  cases st with
  | find g id ty x hg h0 hu hr =>
    have a := h2 id hu
    refine ⟨?_, ?_, ?_, ?_, ?_, ?_, ?_⟩
    iterate 6 simp only [upd]; grind [Pc.id]
    intro i
    by_cases e : i = id
    · exact .inl ⟨g, .found id ty x, by simp [upd], e.symm⟩
    · rcases h7 i with ⟨g', p, hp, hi⟩ | h
      · have : g' ≠ g := fun e' => by rw [e', hg] at hp; cases hp
        exact .inl ⟨g', p, by simpa [upd, this] using hp, hi⟩
      · exact .inr h
  | record g id ty x hg =>
    have a := h3 g id ty x hg
    refine ⟨?_, ?_, ?_, ?_, ?_, ?_, ?_⟩
    iterate 6 simp only [upd]; grind [Pc.id]
    intro i
    by_cases e : i = id
    · exact .inl ⟨g, .recorded id ty x, by simp [upd], e.symm⟩
    · rcases h7 i with ⟨g', p, hp, hi⟩ | h
      · have : g' ≠ g := fun e' => by rw [e', hg] at hp; cases hp; exact e hi.symm
        exact .inl ⟨g', p, by simpa [upd, this] using hp, hi⟩
      · exact .inr (by simpa [upd, e] using h)
  | mount g id ty x hg =>
    have a := h4 g id ty x hg
    refine ⟨?_, ?_, ?_, ?_, ?_, ?_, ?_⟩
    iterate 6 simp only [upd]; grind [Pc.id]
    intro i
    by_cases e : i = id
    · subst e
      exact .inr (.inr (.inl ⟨ty, x, a.1, by simp [upd, a.2.2], a.2.1⟩))
    · rcases h7 i with ⟨g', p, hp, hi⟩ | h
      · have : g' ≠ g := fun e' => by rw [e', hg] at hp; cases hp; exact e hi.symm
        exact .inl ⟨g', p, by simpa [upd, this] using hp, hi⟩
      · exact .inr (by simpa [upd, e] using h)
  | lookup g id x hg h0 hn hm =>
    have a : ∃ ty, reg ty = some x ∧ s.calls id = [.mount ty x] := by
      rcases h7 id with ⟨g', p, hp, hi⟩ | ⟨_, h⟩ | ⟨ty, y, h1, h2, h3⟩ | ⟨ty, y, _, _, h⟩
      · exact absurd hi (hn g' p hp)
      · rw [h] at hm; cases hm
      · rw [hm] at h3; cases h3; exact ⟨ty, h1, h2⟩
      · rw [h] at hm; cases hm
    refine ⟨?_, ?_, ?_, ?_, ?_, ?_, ?_⟩
    iterate 6 simp only [upd]; grind [Pc.id]
    intro i
    by_cases e : i = id
    · exact .inl ⟨g, .owner id x, by simp [upd], e.symm⟩
    · rcases h7 i with ⟨g', p, hp, hi⟩ | h
      · have : g' ≠ g := fun e' => by rw [e', hg] at hp; cases hp
        exact .inl ⟨g', p, by simpa [upd, this] using hp, hi⟩
      · exact .inr h
  | forget g id x hg =>
    have a := h5 g id x hg
    refine ⟨?_, ?_, ?_, ?_, ?_, ?_, ?_⟩
    iterate 6 simp only [upd]; grind [Pc.id]
    intro i
    by_cases e : i = id
    · exact .inl ⟨g, .forgotten id x, by simp [upd], e.symm⟩
    · rcases h7 i with ⟨g', p, hp, hi⟩ | h
      · have : g' ≠ g := fun e' => by rw [e', hg] at hp; cases hp; exact e hi.symm
        exact .inl ⟨g', p, by simpa [upd, this] using hp, hi⟩
      · exact .inr (by simpa [upd, e] using h)
  | unmount g id x hg =>
    obtain ⟨a, ty, b, c⟩ := h6 g id x hg
    refine ⟨?_, ?_, ?_, ?_, ?_, ?_, ?_⟩
    iterate 6 simp only [upd]; grind [Pc.id]
    intro i
    by_cases e : i = id
    · subst e
      exact .inr (.inr (.inr ⟨ty, x, b, by simp [upd, c], a⟩))
    · rcases h7 i with ⟨g', p, hp, hi⟩ | h
      · have : g' ≠ g := fun e' => by rw [e', hg] at hp; cases hp; exact e hi.symm
        exact .inl ⟨g', p, by simpa [upd, this] using hp, hi⟩
      · exact .inr (by simpa [upd, e] using h)

theorem reach_inv {reg : String → Option Nat} {s : St} (r : Reach reg s) : Inv reg s := by
  induction r with
  | init => refine ⟨?_, ?_, ?_, ?_, ?_, ?_, ?_⟩ <;> simp [St.init]
  | step _ st ih => exact inv_step ih st

/-- **C51.** In every interleaving of mount and unmount requests, the calls made about one mount are: none, one mount
call to the mounter registered for its type, or that call followed by one unmount call to the same mounter. -/
theorem C51_same_mounter {reg : String → Option Nat} {s : St} (r : Reach reg s) (id : Nat) :
    s.calls id = [] ∨ ∃ ty x, reg ty = some x ∧ (s.calls id = [.mount ty x] ∨ s.calls id = [.mount ty x, .unmount x]) := by
  have h := reach_inv r
  rcases h.quiet id with ⟨g, p, hp, hi⟩ | h | h | h
  · cases p with
    | found i ty x => cases hi; exact .inl (h.found g _ ty x hp).2.2
    | recorded i ty x => cases hi; exact .inl (h.recorded g _ ty x hp).2.2
    | owner i x =>
      cases hi
      obtain ⟨_, ty, h1, h2⟩ := h.owner g _ x hp
      exact .inr ⟨ty, x, h1, .inl h2⟩
    | forgotten i x =>
      cases hi
      obtain ⟨_, ty, h1, h2⟩ := h.forgotten g _ x hp
      exact .inr ⟨ty, x, h1, .inl h2⟩
  · exact .inl h.1
  · obtain ⟨ty, x, h1, h2, _⟩ := h; exact .inr ⟨ty, x, h1, .inl h2⟩
  · obtain ⟨ty, x, h1, h2, _⟩ := h; exact .inr ⟨ty, x, h1, .inr h2⟩

/-- **C51 (release).** An unmount request for something that was mounted and not yet unmounted is always accepted, and
three steps later has called the mounter that mounted it. -/
theorem C51_unmount_possible {reg : String → Option Nat} {s : St} (r : Reach reg s) {g id x : Nat} {ty : String}
    (hg : s.pc g = none) (h0 : id ≠ 0) (hn : ∀ g' p, s.pc g' = some p → p.id ≠ id) (hc : s.calls id = [.mount ty x]) :
    ∃ s1 s2 s3, Step reg s s1 ∧ Step reg s1 s2 ∧ Step reg s2 s3 ∧ s3.calls id = [.mount ty x, .unmount x] ∧
      s3.mapping id = none ∧ s3.pc g = none := by
  have hm : s.mapping id = some x := by
    rcases (reach_inv r).quiet id with ⟨g', p, hp, hi⟩ | ⟨h, _⟩ | ⟨ty', y, _, h, h'⟩ | ⟨ty', y, _, h, _⟩
    · exact absurd hi (hn g' p hp)
    · rw [hc] at h; cases h
    · rw [hc] at h; cases h; exact h'
    · rw [hc] at h; cases h
  exact ⟨_, _, _, .lookup s g id x hg h0 hn hm, .forget _ g id x (by simp [upd]), .unmount _ g id x (by simp [upd]),
    by simp [upd, hc], by simp [upd], by simp [upd]⟩

/-- Two mounts of different types, one of them released. -/
example : ∃ s, Reach (fun ty => if ty = "volume" then some 1 else if ty = "bind" then some 2 else none) s ∧
    s.calls 7 = [.mount "volume" 1, .unmount 1] ∧ s.calls 8 = [.mount "bind" 2] := by
  have r := (Reach.init (reg := fun ty => if ty = "volume" then some 1 else if ty = "bind" then some 2 else none))
  have r := r.step (.find _ 0 7 "volume" 1 rfl (by decide) rfl (by rfl))
  have r := r.step (.find _ 1 8 "bind" 2 rfl (by decide) rfl (by rfl))
  have r := r.step (.record _ 0 7 "volume" 1 rfl)
  have r := r.step (.mount _ 0 7 "volume" 1 rfl)
  have r := r.step (.record _ 1 8 "bind" 2 rfl)
  have r := r.step (.mount _ 1 8 "bind" 2 rfl)
  have r := r.step (.lookup _ 0 7 1 rfl (by decide) (by
    intro g' p hp
    by_cases h0 : g' = 0
    · subst h0; cases hp
    · by_cases h1 : g' = 1
      · subst h1; cases hp
      · simp [upd, h0, h1, St.init] at hp) rfl)
  have r := r.step (.forget _ 0 7 1 rfl)
  have r := r.step (.unmount _ 0 7 1 rfl)
  exact ⟨_, r, rfl, rfl⟩

end Tork.Mounter
