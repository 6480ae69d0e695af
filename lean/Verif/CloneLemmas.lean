import Verif.Clone
import Verif.CloneSpec

namespace Tork

theorem regClone (o : Option Registry) : o.map Registry.clone = o := by
  cases o <;> rfl
theorem retClone (o : Option TaskRetry) : o.map TaskRetry.clone = o := by cases o <;> rfl
theorem limClone (o : Option TaskLimits) : o.map TaskLimits.clone = o := by cases o <;> rfl
theorem prbClone (o : Option Probe) : o.map Probe.clone = o := by cases o <;> rfl
theorem adClone (o : Option AutoDelete) : o.map AutoDelete.clone = o := by cases o <;> rfl
theorem mountsClone (ms : List Mount) : cloneMounts ms = ms := by
  unfold cloneMounts
  exact List.map_id' ms
theorem whsClone (ms : List Webhook) : cloneWebhooks ms = ms := by
  unfold cloneWebhooks
  exact List.map_id' ms

mutual
theorem clone_forget : (t : Task) → t.clone = t.forgetRedelivery
  | { pre := pre, post := post, sidecars := sidecars, parallel := par, each := ea, subJob := sj, .. } => by
    rw [Task.clone, Task.forgetRedelivery]
    simp only [regClone, retClone, limClone, prbClone, mountsClone, cloneL_forget pre, cloneL_forget post,
      cloneL_forget sidecars, cloneP_forget par, cloneE_forget ea, cloneS_forget sj]
theorem cloneL_forget : (ts : List Task) → cloneTasks ts = forgetRedeliveryL ts
  | [] => by rw [cloneTasks, forgetRedeliveryL]
  | t :: ts => by rw [cloneTasks, forgetRedeliveryL, clone_forget t, cloneL_forget ts]
theorem cloneP_forget : (p : Option (ParallelTask Task)) → clonePar p = forgetRedeliveryP p
  | none => by rw [clonePar, forgetRedeliveryP]
  | some { tasks := ts, .. } => by rw [clonePar, forgetRedeliveryP, cloneL_forget ts]
theorem cloneE_forget : (p : Option (EachTask Task)) → cloneEach p = forgetRedeliveryE p
  | none => by rw [cloneEach, forgetRedeliveryE]
  | some { task := t, .. } => by rw [cloneEach, forgetRedeliveryE, clone_forget t]
theorem cloneS_forget : (p : Option (SubJobTask Task)) → cloneSubJob p = forgetRedeliveryS p
  | none => by rw [cloneSubJob, forgetRedeliveryS]
  | some { tasks := ts, .. } => by
    rw [cloneSubJob, forgetRedeliveryS, cloneL_forget ts, adClone, whsClone]
end

mutual
theorem forget_of_undelivered : (t : Task) → t.Undelivered → t.forgetRedelivery = t
  | { pre := pre, post := post, sidecars := sidecars, parallel := par, each := ea, subJob := sj, .. }, h => by
    rw [Task.Undelivered] at h
    obtain ⟨h0, h1, h2, h3, h4, h5, h6⟩ := h
    simp only at h0
    rw [Task.forgetRedelivery]
    simp only [forgetL_of pre h1, forgetL_of post h2, forgetL_of sidecars h3, forgetP_of par h4,
      forgetE_of ea h5, forgetS_of sj h6, h0]
theorem forgetL_of : (ts : List Task) → UndeliveredL ts → forgetRedeliveryL ts = ts
  | [], _ => by rw [forgetRedeliveryL]
  | t :: ts, h => by
    rw [UndeliveredL] at h
    rw [forgetRedeliveryL, forget_of_undelivered t h.1, forgetL_of ts h.2]
theorem forgetP_of : (p : Option (ParallelTask Task)) → UndeliveredP p → forgetRedeliveryP p = p
  | none, _ => by rw [forgetRedeliveryP]
  | some { tasks := ts, .. }, h => by
    rw [UndeliveredP] at h
    rw [forgetRedeliveryP, forgetL_of ts h]
theorem forgetE_of : (p : Option (EachTask Task)) → UndeliveredE p → forgetRedeliveryE p = p
  | none, _ => by rw [forgetRedeliveryE]
  | some { task := t, .. }, h => by
    rw [UndeliveredE] at h
    rw [forgetRedeliveryE, forget_of_undelivered t h]
theorem forgetS_of : (p : Option (SubJobTask Task)) → UndeliveredS p → forgetRedeliveryS p = p
  | none, _ => by rw [forgetRedeliveryS]
  | some { tasks := ts, .. }, h => by
    rw [UndeliveredS] at h
    rw [forgetRedeliveryS, forgetL_of ts h]
end

mutual
theorem forget_undelivered : (t : Task) → t.forgetRedelivery.Undelivered
  | { pre := pre, post := post, sidecars := sidecars, parallel := par, each := ea, subJob := sj, .. } => by
    rw [Task.forgetRedelivery, Task.Undelivered]
    exact ⟨rfl, forget_undeliveredL pre, forget_undeliveredL post, forget_undeliveredL sidecars,
      forget_undeliveredP par, forget_undeliveredE ea, forget_undeliveredS sj⟩
theorem forget_undeliveredL : (ts : List Task) → UndeliveredL (forgetRedeliveryL ts)
  | [] => by rw [forgetRedeliveryL, UndeliveredL]; trivial
  | t :: ts => by
    rw [forgetRedeliveryL, UndeliveredL]
    exact ⟨forget_undelivered t, forget_undeliveredL ts⟩
theorem forget_undeliveredP : (p : Option (ParallelTask Task)) → UndeliveredP (forgetRedeliveryP p)
  | none => by rw [forgetRedeliveryP, UndeliveredP]; trivial
  | some { tasks := ts, .. } => by
    rw [forgetRedeliveryP, UndeliveredP]; exact forget_undeliveredL ts
theorem forget_undeliveredE : (p : Option (EachTask Task)) → UndeliveredE (forgetRedeliveryE p)
  | none => by rw [forgetRedeliveryE, UndeliveredE]; trivial
  | some { task := t, .. } => by
    rw [forgetRedeliveryE, UndeliveredE]; exact forget_undelivered t
theorem forget_undeliveredS : (p : Option (SubJobTask Task)) → UndeliveredS (forgetRedeliveryS p)
  | none => by rw [forgetRedeliveryS, UndeliveredS]; trivial
  | some { tasks := ts, .. } => by
    rw [forgetRedeliveryS, UndeliveredS]; exact forget_undeliveredL ts
end

theorem usrClone (u : User) (h : u.NoPlainPassword) : u.clone = u := by
  cases u; simp only [User.NoPlainPassword] at h; subst h; rfl

theorem permClone (p : Permission) (h : p.Exact) : p.clone = p := by
  rcases h with ⟨r, rfl⟩ | ⟨u, hu, rfl⟩
  · rfl
  · simp only [Permission.clone, Option.map, usrClone u hu]

theorem permsClone (ps : List Permission) (h : ∀ p ∈ ps, p.Exact) : clonePermissions ps = ps := by
  unfold clonePermissions
  induction ps with
  | nil => rfl
  | cons p ps ih =>
    rw [List.map_cons, permClone p (h p (by simp)), ih fun q hq => h q (by simp [hq])]

theorem defClone (o : Option JobDefaults) : o.map JobDefaults.clone = o := by
  cases o with
  | none => rfl
  | some d => cases d; simp [JobDefaults.clone, limClone, retClone]

theorem schClone (o : Option JobSchedule) : o.map JobSchedule.clone = o := by cases o <;> rfl

theorem usrOptClone (o : Option User) (h : ∀ u, o = some u → u.NoPlainPassword) : o.map User.clone = o := by
  cases o with
  | none => rfl
  | some u => rw [Option.map, usrClone u (h u rfl)]

end Tork
