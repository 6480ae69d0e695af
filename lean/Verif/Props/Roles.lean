import Verif.Roles
import Verif.Props.Listing
/-!
# C91 — roles and who has them
-/

namespace Tork.Roles

/-- A request is about the assignment of this role to this user. -/
def About (u r : Nat) : Op → Prop
  | .assign u' r' => u' = u ∧ r' = r
  | .unassign u' r' => u' = u ∧ r' = r
  | _ => False

/-- What the schema guarantees. -/
structure Sound (db : Rel) : Prop where
  names : (db.users.map (·.username)).Nodup
  userIDs : (db.users.map (·.id)).Nodup
  slugs : (db.roles.map (·.slug)).Nodup
  ids : (db.roles.map (·.id)).Nodup
  pairs : db.userRoles.Nodup
  refs : ∀ p, p ∈ db.userRoles → (∃ u ∈ db.users, u.id = p.1) ∧ ∃ r ∈ db.roles, r.id = p.2

theorem nodup_snoc {α β : Type} (l : List α) (f : α → β) (a : α) (h : (l.map f).Nodup) (hn : ∀ x ∈ l, f x ≠ f a) :
    ((l ++ [a]).map f).Nodup := by
  rw [List.map_append, List.nodup_append]
  refine ⟨h, by simp, fun x hx y hy => ?_⟩
  obtain ⟨z, hz, rfl⟩ := List.mem_map.mp hx
  simp only [List.map_cons, List.map_nil, List.mem_singleton] at hy
  rw [hy]; exact hn z hz

theorem sound_after {db : Rel} (h : Sound db) (o : Op) : Sound (after db o) := by
  cases o with
  | createUser id now u =>
    simp only [after, Tork.createUser]
    split
    · rename_i h'; split at h'
      · exact nomatch h'
      · rename_i d hn
        injection h' with h'
        subst h'
        simp only [List.any_eq_true, not_exists, not_and, Bool.or_eq_true, decide_eq_true_eq, not_or] at hn
        exact ⟨nodup_snoc _ _ _ h.names fun x hx => (hn x hx).1, nodup_snoc _ _ _ h.userIDs fun x hx => (hn x hx).2, h.slugs, h.ids, h.pairs,
          fun p hp => ⟨(h.refs p hp).1.imp fun x hx => ⟨List.mem_append_left _ hx.1, hx.2⟩, (h.refs p hp).2⟩⟩
    · exact h
  | createRole id now r =>
    simp only [after, createRole]
    split
    · rename_i h'; split at h'
      · exact nomatch h'
      · rename_i d hn
        injection h' with h'
        subst h'
        simp only [List.any_eq_true, not_exists, not_and, Bool.or_eq_true, decide_eq_true_eq, not_or] at hn
        exact ⟨h.names, h.userIDs, nodup_snoc _ _ _ h.slugs fun x hx => (hn x hx).1, nodup_snoc _ _ _ h.ids fun x hx => (hn x hx).2, h.pairs,
          fun p hp => ⟨(h.refs p hp).1, (h.refs p hp).2.imp fun x hx => ⟨List.mem_append_left _ hx.1, hx.2⟩⟩⟩
    · exact h
  | assign u r =>
    simp only [after, assignRole]
    split
    · rename_i h'; split at h'
      · rename_i hc
        injection h' with h'
        subst h'
        simp only [Bool.and_eq_true, List.any_eq_true, decide_eq_true_eq, Bool.not_eq_true', List.any_eq_false] at hc
        obtain ⟨⟨hu, hr⟩, hn⟩ := hc
        refine ⟨h.names, h.userIDs, h.slugs, h.ids, ?_, fun p hp => ?_⟩
        · rw [List.nodup_append]
          refine ⟨h.pairs, by simp, fun x hx y hy => ?_⟩
          rw [List.mem_singleton.mp hy]; exact hn x hx
        · rcases List.mem_append.mp hp with hp | hp
          · exact h.refs p hp
          · rw [List.mem_singleton.mp hp]; exact ⟨hu, hr⟩
      · exact nomatch h'
    · exact h
  | unassign u r =>
    exact ⟨h.names, h.userIDs, h.slugs, h.ids, h.pairs.filter _, fun p hp => h.refs p (List.mem_filter.mp hp).1⟩

theorem sound_history {db : Rel} (h : Sound db) (ops : List Op) : Sound (history db ops) := by
  induction ops generalizing db with
  | nil => exact h
  | cons o ops ih => exact ih (sound_after h o)

/-- A user has a role exactly if it is listed among the user's roles. -/
theorem mem_getUserRoles {db : Rel} (u : Nat) (x : Role) : x ∈ getUserRoles u db ↔ x ∈ db.roles ∧ (u, x.id) ∈ db.userRoles := by
  simp only [getUserRoles, List.mem_flatMap, List.mem_map, List.mem_filter, Bool.and_eq_true, decide_eq_true_eq]
  constructor
  · rintro ⟨r, hr, p, ⟨hp, h1, h2⟩, rfl⟩
    refine ⟨hr, ?_⟩
    rw [← h1, ← h2]; exact hp
  · rintro ⟨hr, hp⟩
    exact ⟨x, hr, _, ⟨hp, rfl, rfl⟩, rfl⟩

theorem after_other (db : Rel) (o : Op) (u r : Nat) (h : ¬ About u r o) : (u, r) ∈ (after db o).userRoles ↔ (u, r) ∈ db.userRoles := by
  cases o with
  | createUser id now x =>
    simp only [after, Tork.createUser]
    split
    · rename_i h'; split at h'
      · exact nomatch h'
      · injection h' with h'; subst h'; rfl
    · rfl
  | createRole id now x =>
    simp only [after, createRole]
    split
    · rename_i h'; split at h'
      · exact nomatch h'
      · injection h' with h'; subst h'; rfl
    · rfl
  | assign u' r' =>
    simp only [after, assignRole]
    split
    · rename_i h'; split at h'
      · injection h' with h'; subst h'
        simp only [List.mem_append, List.mem_singleton, Prod.mk.injEq]
        exact ⟨fun x => x.elim id fun e => absurd ⟨e.1.symm, e.2.symm⟩ h, Or.inl⟩
      · exact nomatch h'
    · rfl
  | unassign u' r' =>
    show (u, r) ∈ List.filter _ _ ↔ _
    rw [List.mem_filter]
    refine ⟨fun x => x.1, fun x => ⟨x, ?_⟩⟩
    simp only [Bool.not_eq_true', Bool.and_eq_false_iff, decide_eq_false_iff_not]
    by_cases e : u = u'
    · exact .inr fun e' => h ⟨e.symm, e'.symm⟩
    · exact .inl e

theorem history_other (db : Rel) (ops : List Op) (u r : Nat) (h : ∀ o, o ∈ ops → ¬ About u r o) :
    (u, r) ∈ (history db ops).userRoles ↔ (u, r) ∈ db.userRoles := by
  induction ops generalizing db with
  | nil => rfl
  | cons o ops ih =>
    exact (ih (after db o) fun o' ho => h o' (List.mem_cons_of_mem _ ho)).trans (after_other db o u r (h o List.mem_cons_self))

theorem history_append (db : Rel) (a b : List Op) : history db (a ++ b) = history (history db a) b := List.foldl_append ..

theorem mem_assign (db : Rel) (u r : Nat) (hs : Sound db) : (u, r) ∈ (after db (.assign u r)).userRoles ↔
    (∃ x ∈ db.users, x.id = u) ∧ ∃ x ∈ db.roles, x.id = r := by
  simp only [after, assignRole]
  by_cases hm : (u, r) ∈ db.userRoles
  · have : db.userRoles.any (fun ur => decide (ur = (u, r))) = true := by simpa using hm
    simp only [this]
    simp only [Bool.not_true, Bool.and_false, Bool.false_eq_true, if_false]
    exact ⟨fun _ => hs.refs _ hm, fun _ => hm⟩
  · have : db.userRoles.any (fun ur => decide (ur = (u, r))) = false := by simpa using fun p q hp e => by rintro rfl; exact hm (e ▸ hp)
    simp only [this]
    by_cases hc : (db.users.any (fun x => decide (x.id = u)) && db.roles.any (fun x => decide (x.id = r))) = true
    · simp only [hc]
      simp only [Bool.not_false, Bool.and_true, if_true, List.mem_append, List.mem_singleton, or_true, true_iff]
      simpa using hc
    · simp only [Bool.not_false, Bool.and_true, hc, if_false]
      refine ⟨fun x => absurd x hm, fun x => absurd ?_ hc⟩
      simpa using x

/-- **C91, granted.** After an assignment to a user that exists of a role that exists, and requests about others, the user has the role. -/
theorem C91_granted {db : Rel} (hs : Sound db) (a b : List Op) (u : Nat) (x : Role) (hu : ∃ y ∈ (history db a).users, y.id = u)
    (hx : x ∈ (history db (a ++ .assign u x.id :: b)).roles) (hr : ∃ y ∈ (history db a).roles, y.id = x.id) (hb : ∀ o, o ∈ b → ¬ About u x.id o) :
    x ∈ getUserRoles u (history db (a ++ .assign u x.id :: b)) := by
  refine (mem_getUserRoles u x).mpr ⟨hx, ?_⟩
  rw [history_append]
  refine (history_other (after (history db a) (.assign u x.id)) b u x.id hb).mpr ?_
  exact (mem_assign _ u x.id (sound_history hs a)).mpr ⟨hu, hr⟩

/-- **C91, revoked.** After an unassignment and requests about others, the user does not have the role. -/
theorem C91_revoked {db : Rel} (a b : List Op) (u r : Nat) (hb : ∀ o, o ∈ b → ¬ About u r o) (x : Role) (hx : x.id = r) :
    x ∉ getUserRoles u (history db (a ++ .unassign u r :: b)) := by
  intro h
  have h := ((mem_getUserRoles u x).mp h).2
  rw [hx, history_append] at h
  have := (history_other (after (history db a) (.unassign u r)) b u r hb).mp h
  have := (List.mem_filter.mp this).2
  simp at this

/-- **C91, kept.** Requests about other users or other roles change nothing. -/
theorem C91_kept {db : Rel} (ops : List Op) (u r : Nat) (h : ∀ o, o ∈ ops → ¬ About u r o) :
    (∃ x ∈ getUserRoles u (history db ops), x.id = r ∧ x ∈ db.roles) ↔ ∃ x ∈ getUserRoles u db, x.id = r := by
  have grow : ∀ (ops : List Op) (db : Rel) (x : Role), x ∈ db.roles → x ∈ (history db ops).roles := by
    intro ops
    induction ops with
    | nil => exact fun _ _ h => h
    | cons o ops ih =>
      intro db x hx
      refine ih _ x ?_
      cases o with
      | createUser id now y =>
        simp only [after, Tork.createUser]; split
        · rename_i h'; split at h'
          · exact nomatch h'
          · injection h' with h'; subst h'; exact hx
        · exact hx
      | createRole id now y =>
        simp only [after, createRole]; split
        · rename_i h'; split at h'
          · exact nomatch h'
          · injection h' with h'; subst h'; exact List.mem_append_left _ hx
        · exact hx
      | assign u' r' =>
        simp only [after, assignRole]; split
        · rename_i h'; split at h'
          · injection h' with h'; subst h'; exact hx
          · exact nomatch h'
        · exact hx
      | unassign u' r' => exact hx
  constructor
  · rintro ⟨x, hx, rfl, hr⟩
    exact ⟨x, (mem_getUserRoles u x).mpr ⟨hr, (history_other db ops u x.id h).mp ((mem_getUserRoles u x).mp hx).2⟩, rfl⟩
  · rintro ⟨x, hx, rfl⟩
    have hx := (mem_getUserRoles u x).mp hx
    exact ⟨x, (mem_getUserRoles u x).mpr ⟨grow ops db x hx.1, (history_other db ops u x.id h).mpr hx.2⟩, rfl, hx.1⟩

/-- **C91, refused.** A second assignment, and one of an unknown role or to an unknown user, is an error and changes nothing. -/
theorem C91_refused (u r : Nat) (db : Rel) (h : (u, r) ∈ db.userRoles ∨ (∀ x ∈ db.users, x.id ≠ u) ∨ ∀ x ∈ db.roles, x.id ≠ r) :
    (∃ e, assignRole u r db = .error e) ∧ after db (.assign u r) = db := by
  have : assignRole u r db = .error "error inserting role to the db" := by
    unfold assignRole
    rw [if_neg]
    intro hc
    simp only [Bool.and_eq_true, List.any_eq_true, decide_eq_true_eq, Bool.not_eq_true', List.any_eq_false] at hc
    obtain ⟨⟨⟨x, hx, e⟩, y, hy, e'⟩, hn⟩ := hc
    rcases h with h | h | h
    · exact hn _ h rfl
    · exact h x hx e
    · exact h y hy e'
  exact ⟨⟨_, this⟩, by simp [after, this]⟩

/-- **C91, once.** A role is listed at most once among the roles of a user, whatever happened. -/
theorem C91_once {db : Rel} (hs : Sound db) (ops : List Op) (u : Nat) : ((getUserRoles u (history db ops)).map (·.id)).Nodup := by
  have h := sound_history hs ops
  generalize history db ops = d at h
  have hp := h.pairs
  have hi := h.ids
  unfold getUserRoles
  generalize d.roles = l at hi
  induction l with
  | nil => simp
  | cons a l ih =>
    simp only [List.map_cons, List.nodup_cons] at hi
    rw [List.flatMap_cons, List.map_append, List.nodup_append]
    refine ⟨?_, ih hi.2, ?_⟩
    · have hc : (d.userRoles.filter fun ur => decide (ur.2 = a.id) && decide (ur.1 = u)).length ≤ 1 := by
        have h2 := hp.filter (fun ur : Nat × Nat => decide (ur.2 = a.id) && decide (ur.1 = u))
        have h3 : ∀ p ∈ (d.userRoles.filter fun ur => decide (ur.2 = a.id) && decide (ur.1 = u)), p = (u, a.id) := by
          intro p hp
          have := (List.mem_filter.mp hp).2
          simp only [Bool.and_eq_true, decide_eq_true_eq] at this
          exact Prod.ext this.2 this.1
        generalize d.userRoles.filter (fun ur => decide (ur.2 = a.id) && decide (ur.1 = u)) = m at h2 h3 ⊢
        match m with
        | [] => exact Nat.zero_le _
        | [_] => exact Nat.le_refl _
        | p :: q :: t =>
          have e1 := h3 p List.mem_cons_self
          have e2 := h3 q (List.mem_cons_of_mem _ List.mem_cons_self)
          rw [e1, e2] at h2
          simp at h2
      generalize d.userRoles.filter (fun ur => decide (ur.2 = a.id) && decide (ur.1 = u)) = m at hc ⊢
      match m with
      | [] => simp
      | [_] => simp
      | _ :: _ :: _ => simp at hc
    · intro x hx y hy e
      subst e
      simp only [List.map_map, List.mem_map] at hx
      obtain ⟨_, _, rfl⟩ := hx
      obtain ⟨y, hy, e⟩ := List.mem_map.mp hy
      obtain ⟨z, hz, hy⟩ := List.mem_flatMap.mp hy
      obtain ⟨_, _, rfl⟩ := List.mem_map.mp hy
      exact hi.1 (List.mem_map.mpr ⟨_, hz, e⟩)

/-- **C91, access.** A job whose only permission is a role is shown to a user exactly as long as the user has the role. -/
theorem C91_access {db : Rel} (hs : Sound db) (ops : List Op) (y : User) (hy : y ∈ (history db ops).users) (hn : y.username ≠ "")
    (perms : List PermRow) (job r : Nat) (hp : ∃ p ∈ perms, p.jobID = job) (hr : ∀ p ∈ perms, p.jobID = job → p.roleID = some r ∧ p.userID = none) :
    visible (history db ops) perms y.username job = true ↔ (y.id, r) ∈ (history db ops).userRoles := by
  have h := sound_history hs ops
  rw [visible_iff h.names hn]
  obtain ⟨p, hp, hj⟩ := hp
  constructor
  · rintro (hv | ⟨y', hy', e, q, hq, hqj, hv⟩)
    · exact absurd hj (hv p hp)
    · have : y' = y := by
        have h1 := find_name h.names hy'
        have h2 := find_name h.names hy
        rw [e] at h1
        rw [h1] at h2
        injection h2
      subst this
      obtain ⟨q1, q2⟩ := hr q hq hqj
      rcases hv with hv | ⟨r', hv, e'⟩
      · rw [q2] at hv; exact nomatch hv
      · rw [q1] at e'; injection e' with e'; rw [e']; exact hv
  · intro hm
    exact .inr ⟨y, hy, rfl, p, hp, hj, .inr ⟨r, hm, (hr p hp hj).1⟩⟩

/-- **C91, names.** A role that was created is found under its slug, and it alone unless the slug is how the id of another is written. -/
theorem C91_found {db : Rel} (hs : Sound db) (idText : Nat → String) (ops : List Op) (x : Role) (hx : x ∈ (history db ops).roles)
    (hid : ∀ y ∈ (history db ops).roles, y ≠ x → idText y.id ≠ x.slug) : ∀ y, y ∈ getRole idText x.slug (history db ops) ↔ y = x := by
  intro y
  have h := (sound_history hs ops).slugs
  simp only [getRole, List.mem_filter, Bool.or_eq_true, decide_eq_true_eq]
  constructor
  · rintro ⟨hy, e⟩
    by_cases hne : y = x
    · exact hne
    · rcases e with e | e
      · exact absurd e (hid y hy hne)
      · generalize (history db ops).roles = l at *
        induction l with
        | nil => exact absurd hy (by simp)
        | cons a l ih =>
          simp only [List.map_cons, List.nodup_cons] at h
          rcases List.mem_cons.mp hx with hx' | hx' <;> rcases List.mem_cons.mp hy with hy' | hy'
          · rw [hx', hy']
          · subst hx'; exact absurd (List.mem_map.mpr ⟨y, hy', e⟩) h.1
          · subst hy'; exact absurd (List.mem_map.mpr ⟨x, hx', e.symm⟩) h.1
          · exact ih hx' (fun z hz => hid z (List.mem_cons_of_mem _ hz)) h.2 hy'
  · rintro rfl; exact ⟨hx, .inr rfl⟩

/-- The defect: nothing keeps a role from having a slug that is the id of another; then the slug may find the other. -/
theorem C91_slug_is_id_defect : ∃ (ops : List Op) (x y : Role), x ≠ y ∧ x ∈ getRole toString "7" (history {} ops) ∧ y ∈ getRole toString "7" (history {} ops) :=
  ⟨[.createRole 7 0 { slug := "admin", name := "Admin" }, .createRole 8 0 { slug := "7", name := "Seven" }],
    { id := 7, slug := "admin", name := "Admin", createdAt := some 0 }, { id := 8, slug := "7", name := "Seven", createdAt := some 0 }, by decide,
    by decide +kernel, by decide +kernel⟩

/-! ### A concrete case -/

/-- A user is given a role, sees the job, loses it and sees it no more. -/
example : let setup : List Op := [.createUser 1 0 { username := "ann" }, .createRole 5 0 { slug := "ops" }]
    let perms : List PermRow := [{ id := 1, jobID := 9, roleID := some 5 }]
    visible (history {} setup) perms "ann" 9 = false ∧
    visible (history {} (setup ++ [.assign 1 5])) perms "ann" 9 = true ∧
    visible (history {} (setup ++ [.assign 1 5, .assign 1 5, .unassign 1 5])) perms "ann" 9 = false := by
  decide +kernel

example : Sound {} := ⟨by simp, by simp, by simp, by simp, by simp, (fun _ h => nomatch h)⟩

end Tork.Roles
