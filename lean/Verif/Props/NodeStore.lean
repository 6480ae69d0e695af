import Verif.NodeStore
/-!
# C36 — heartbeats are monotone
-/

namespace Tork.NodeStore

/-- The heartbeats of one node in a history. -/
def own (id : Nat) (hs : List (Nat × Node)) : List Node :=
  (hs.map (·.2)).filter (·.id = id)

/-- Specification: `n` is the newest heartbeat of the list: nothing before it is newer, everything
processed after it is strictly older. -/
def Newest (l : List Node) (n : Node) : Prop :=
  ∃ pre post, l = pre ++ n :: post ∧ (∀ m ∈ pre, m.lastHeartbeatAt ≤ n.lastHeartbeatAt) ∧
    ∀ m ∈ post, m.lastHeartbeatAt < n.lastHeartbeatAt

/-- Specification of the reported status at time `now` of a node whose newest heartbeat is `n`. -/
def reportedStatus (now : Nat) (n : Node) : NodeStatus :=
  if n.status = .up ∧ n.lastHeartbeatAt + 60 < now then .offline else n.status

/-- Processing times do not go backwards. -/
def Ordered (hs : List (Nat × Node)) : Prop := hs.Pairwise (fun a b => a.1 ≤ b.1)

theorem find_map (rows : List Node) (id id' : Nat) (f : Node → Node) (hf : ∀ x, (f x).id = x.id) :
    (rows.map fun x => if x.id = id then f x else x).find? (fun x => decide (x.id = id'))
      = (rows.find? (fun x => decide (x.id = id'))).map fun x => if x.id = id then f x else x := by
  induction rows with
  | nil => rfl
  | cons r rows ih =>
    simp only [List.map_cons, List.find?_cons]
    by_cases h : r.id = id
    · simp only [h, if_true, hf]
      by_cases h' : id = id'
      · simp [h', h]
      · simp [h', ih]
    · simp only [h, if_false]
      by_cases h' : r.id = id'
      · simp [h']; intro h''; exact absurd (h'.trans h'') h
      · simp [h', ih]

/-- The row of `id` after handling one more heartbeat. -/
theorem handle_find (now : Nat) (n : Node) (rows : List Node) (id : Nat) :
    (handle now n rows).find? (fun x => decide (x.id = id)) =
      if n.id = id then
        match rows.find? (fun x => decide (x.id = id)) with
        | none => some n
        | some r => some (persistNode r (heartbeatRow n (toNode now r)))
      else rows.find? (fun x => decide (x.id = id)) := by
  unfold handle getNodeByID
  cases h : rows.find? (fun x => decide (x.id = n.id)) with
  | none =>
    simp only [Option.map_none]
    have hany : rows.any (fun x => decide (x.id = n.id)) = false := by
      rw [List.any_eq_false]; intro x hx; rw [List.find?_eq_none] at h; exact h x hx
    simp only [createNode, hany, if_neg (Bool.false_ne_true), Option.getD_some, List.find?_append]
    by_cases hid : n.id = id
    · subst hid; simp [h]
    · simp [hid]
  | some r =>
    simp only [Option.map_some, updateNode, h, Option.getD_some]
    rw [find_map _ _ _ _ (by intro x; rfl)]
    by_cases hid : n.id = id
    · subst hid
      have hr : r.id = n.id := by have := List.find?_some h; simpa using this
      simp [h, hr]
    · simp only [hid, if_false]
      cases h2 : rows.find? (fun x => decide (x.id = id)) with
      | none => rfl
      | some r2 =>
        have : r2.id = id := by have := List.find?_some h2; simpa using this
        simp [this, Ne.symm hid]

/-- Status after possibly having been persisted by the handler at an earlier time. -/
def StatusOk (T : Nat) (r n : Node) : Prop :=
  r.status = n.status ∨ (n.status = .up ∧ r.status = .offline ∧ n.lastHeartbeatAt + 60 < T)

theorem own_snoc (id : Nat) (hs : List (Nat × Node)) (h : Nat × Node) :
    own id (hs ++ [h]) = if h.2.id = id then own id hs ++ [h.2] else own id hs := by
  by_cases hh : h.2.id = id <;> simp [own, hh, List.filter_append]

theorem newest_snoc {l : List Node} {h n : Node} :
    Newest (l ++ [h]) n ↔ (n = h ∧ ∀ m ∈ l, m.lastHeartbeatAt ≤ h.lastHeartbeatAt) ∨
      (Newest l n ∧ h.lastHeartbeatAt < n.lastHeartbeatAt) := by
  constructor
  · rintro ⟨pre, post, he, h1, h2⟩
    rcases List.eq_nil_or_concat post with rfl | ⟨p, x, rfl⟩
    · have := List.append_inj' he rfl
      simp at this
      obtain ⟨rfl, rfl⟩ := this
      exact .inl ⟨rfl, h1⟩
    · rw [List.concat_eq_append, ← List.cons_append, ← List.append_assoc] at he
      have := List.append_inj' he rfl
      simp at this
      obtain ⟨rfl, rfl⟩ := this
      refine .inr ⟨⟨pre, p, rfl, h1, fun m hm => h2 m (by simp [hm])⟩, h2 _ (by simp)⟩
  · rintro (⟨rfl, h1⟩ | ⟨⟨pre, post, rfl, h1, h2⟩, h3⟩)
    · exact ⟨l, [], rfl, h1, by simp⟩
    · refine ⟨pre, post ++ [h], by simp, h1, ?_⟩
      intro m hm; simp at hm; rcases hm with hm | rfl
      · exact h2 m hm
      · exact h3

theorem newest_mem {l : List Node} {n} (h : Newest l n) : n ∈ l := by
  obtain ⟨p, q, rfl, _⟩ := h; simp

/-- Every non-empty history has a newest heartbeat. -/
theorem newest_exists (l : List Node) (hl : l ≠ []) : ∃ n, Newest l n := by
  have : ∀ k (l : List Node), l.length = k → l ≠ [] →
      ∃ n, Newest l n ∧ ∀ m ∈ l, m.lastHeartbeatAt ≤ n.lastHeartbeatAt := by
    intro k
    induction k with
    | zero => intro l h1 h2; simp at h1; exact absurd h1 h2
    | succ k ih =>
      intro l h1 h2
      rcases List.eq_nil_or_concat l with rfl | ⟨l', x, rfl⟩
      · exact absurd rfl h2
      · rw [List.concat_eq_append] at *
        by_cases hl' : l' = []
        · subst hl'; exact ⟨x, ⟨[], [], by simp⟩, by simp⟩
        · obtain ⟨n, hn, hmax⟩ := ih l' (by simpa using h1) hl'
          by_cases hx : x.lastHeartbeatAt < n.lastHeartbeatAt
          · refine ⟨n, newest_snoc.2 (.inr ⟨hn, hx⟩), ?_⟩
            intro m hm; simp at hm; rcases hm with hm | rfl
            · exact hmax m hm
            · omega
          · refine ⟨x, newest_snoc.2 (.inl ⟨rfl, ?_⟩), ?_⟩
            · intro m hm; have := hmax m hm; omega
            · intro m hm; simp at hm; rcases hm with hm | rfl
              · have := hmax m hm; omega
              · omega
  obtain ⟨n, h, _⟩ := this _ l rfl hl
  exact ⟨n, h⟩

theorem process_inv (id : Nat) (hs : List (Nat × Node)) (ho : Ordered hs) :
    match (process hs).find? (fun x => decide (x.id = id)) with
    | none => own id hs = []
    | some r =>
      (∃ m ∈ own id hs, r.lastHeartbeatAt = m.lastHeartbeatAt) ∧
      ∀ n, Newest (own id hs) n → r.lastHeartbeatAt = n.lastHeartbeatAt ∧
        r.cpuPercent = n.cpuPercent ∧ r.taskCount = n.taskCount ∧
        ∀ T, (∀ h ∈ hs, h.1 ≤ T) → StatusOk T r n := by
  have key : ∀ k (hs : List (Nat × Node)), hs.length = k → Ordered hs →
      match (process hs).find? (fun x => decide (x.id = id)) with
      | none => own id hs = []
      | some r =>
        (∃ m ∈ own id hs, r.lastHeartbeatAt = m.lastHeartbeatAt) ∧
        ∀ n, Newest (own id hs) n → r.lastHeartbeatAt = n.lastHeartbeatAt ∧
          r.cpuPercent = n.cpuPercent ∧ r.taskCount = n.taskCount ∧
          ∀ T, (∀ h ∈ hs, h.1 ≤ T) → StatusOk T r n := by
    intro k
    induction k with
    | zero => intro hs h0 _; simp at h0; subst h0; simp [process, own]
    | succ k ih =>
      intro hs hk ho
      rcases List.eq_nil_or_concat hs with rfl | ⟨hs', ⟨now, h⟩, rfl⟩
      · simp at hk
      rw [List.concat_eq_append] at *
      have ho' : Ordered hs' := (List.pairwise_append.1 ho).1
      have hlast : ∀ x ∈ hs', x.1 ≤ now := fun x hx => (List.pairwise_append.1 ho).2.2 x hx (now, h) (by simp)
      have ih := ih hs' (by simpa using hk) ho'
      have hproc : process (hs' ++ [(now, h)]) = handle now h (process hs') := by simp [process]
      rw [hproc, handle_find, own_snoc]
      by_cases hid : h.id = id
      · simp only [hid, if_true]
        cases hf : (process hs').find? (fun x => decide (x.id = id)) with
        | none =>
          rw [hf] at ih
          simp only at ih ⊢
          rw [ih]
          refine ⟨⟨h, by simp, rfl⟩, ?_⟩
          intro n hn
          have := newest_mem hn
          simp at this; subst this
          exact ⟨rfl, rfl, rfl, fun _ _ => .inl rfl⟩
        | some r =>
          rw [hf] at ih
          simp only at ih ⊢
          obtain ⟨⟨m0, hm0, hr0⟩, ihn⟩ := ih
          have htl : (toNode now r).lastHeartbeatAt = r.lastHeartbeatAt := by unfold toNode; split <;> rfl
          have htc : (toNode now r).cpuPercent = r.cpuPercent := by unfold toNode; split <;> rfl
          have htt : (toNode now r).taskCount = r.taskCount := by unfold toNode; split <;> rfl
          by_cases hnew : r.lastHeartbeatAt > h.lastHeartbeatAt
          · have hrow : heartbeatRow h (toNode now r) = toNode now r := by
              unfold heartbeatRow; rw [htl, if_pos hnew]
            rw [hrow]
            refine ⟨⟨m0, by simp [hm0], by simp [persistNode, htl, hr0]⟩, ?_⟩
            intro n hn
            rcases newest_snoc.1 hn with ⟨rfl, hle⟩ | ⟨hn', hlt⟩
            · have := hle m0 hm0; omega
            · obtain ⟨h1, h2, h3, h4⟩ := ihn n hn'
              refine ⟨by simp [persistNode, htl, h1], by simp [persistNode, htc, h2],
                by simp [persistNode, htt, h3], ?_⟩
              intro T hT
              have hT' : ∀ x ∈ hs', x.1 ≤ T := fun x hx => hT x (by simp [hx])
              have hnowT : now ≤ T := hT (now, h) (by simp)
              show StatusOk T _ _
              by_cases hcond : r.lastHeartbeatAt + 2 * heartbeatRate < now ∧ r.status = .up
              · have e : toNode now r = { r with status := .offline } := if_pos hcond
                rw [e]
                unfold heartbeatRate at hcond
                obtain ⟨hc1, hc2⟩ := hcond
                right
                rcases h4 T hT' with hs | ⟨hs1, hs2, hs3⟩
                · exact ⟨by rw [← hs]; exact hc2, rfl, by omega⟩
                · rw [hs2] at hc2; exact absurd hc2 (by decide)
              · have e : toNode now r = r := if_neg hcond
                rw [e]; exact h4 T hT'
          · have hrow : heartbeatRow h (toNode now r) =
              { toNode now r with lastHeartbeatAt := h.lastHeartbeatAt, cpuPercent := h.cpuPercent
                                  status := h.status, taskCount := h.taskCount } := by
              unfold heartbeatRow; rw [htl, if_neg hnew]
            rw [hrow]
            refine ⟨⟨h, by simp, rfl⟩, ?_⟩
            intro n hn
            rcases newest_snoc.1 hn with ⟨rfl, hle⟩ | ⟨hn', hlt⟩
            · exact ⟨rfl, rfl, rfl, fun _ _ => .inl rfl⟩
            · have := (ihn n hn').1; omega
      · simp only [hid, if_false]
        cases hf : (process hs').find? (fun x => decide (x.id = id)) with
        | none => rw [hf] at ih; simpa using ih
        | some r =>
          rw [hf] at ih
          simp only at ih ⊢
          refine ⟨ih.1, fun n hn => ?_⟩
          obtain ⟨h1, h2, h3, h4⟩ := ih.2 n hn
          exact ⟨h1, h2, h3, fun T hT => h4 T fun x hx => hT x (by simp [hx])⟩
  exact key _ hs rfl ho

/-- **C36 (content).** After any history of heartbeats (in any order of arrival, from any number of
nodes), a node is known exactly if it sent one, and what is reported for it at a time `now` not before
the processing times is: the time, cpu and task count of its newest heartbeat, and the status of the
newest heartbeat, except OFFLINE instead of UP when that heartbeat is more than 60 s old. -/
theorem C36_heartbeat_newest (id now : Nat) (hs : List (Nat × Node)) (ho : Ordered hs)
    (hnow : ∀ h ∈ hs, h.1 ≤ now) :
    (getNodeByID now id (process hs) = none ↔ own id hs = []) ∧
    ∀ n, Newest (own id hs) n → ∃ r, getNodeByID now id (process hs) = some r ∧
      r.lastHeartbeatAt = n.lastHeartbeatAt ∧ r.cpuPercent = n.cpuPercent ∧
      r.taskCount = n.taskCount ∧ r.status = reportedStatus now n := by
  have hi := process_inv id hs ho
  cases hf : (process hs).find? (fun x => decide (x.id = id)) with
  | none =>
    rw [hf] at hi
    simp only at hi
    refine ⟨by simp [getNodeByID, hf, hi], ?_⟩
    intro n hn; rw [hi] at hn; simpa using newest_mem hn
  | some r =>
    rw [hf] at hi
    simp only at hi
    obtain ⟨⟨m, hm, _⟩, hi⟩ := hi
    refine ⟨by simp [getNodeByID, hf]; intro h; rw [h] at hm; simp at hm, ?_⟩
    intro n hn
    obtain ⟨h1, h2, h3, h4⟩ := hi n hn
    have h4 := h4 now hnow
    refine ⟨toNode now r, by simp [getNodeByID, hf], ?_, ?_, ?_, ?_⟩
    · unfold toNode; split <;> exact h1
    · unfold toNode; split <;> exact h2
    · unfold toNode; split <;> exact h3
    · unfold toNode reportedStatus heartbeatRate
      rw [h1]
      rcases h4 with h4 | ⟨h4, h5, h6⟩
      · rw [h4]
        by_cases hu : n.status = .up
        · by_cases hl : n.lastHeartbeatAt + 60 < now
          · simp [hu, hl]
          · simp [hu, hl, h4]
        · simp [hu, h4]
      · simp [h4, h5, h6]

/-- **C36 (monotone).** Handling a further heartbeat, at any time and of any node, never makes the
recorded last heartbeat of a known node smaller and never forgets a node. -/
theorem C36_heartbeat_monotone (now : Nat) (h : Node) (rows : List Node) (id : Nat) (r : Node)
    (hr : getNodeByID now id rows = some r) :
    ∃ r', getNodeByID now id (handle now h rows) = some r' ∧ r.lastHeartbeatAt ≤ r'.lastHeartbeatAt := by
  unfold getNodeByID at hr ⊢
  rw [handle_find]
  cases hf : rows.find? (fun x => decide (x.id = id)) with
  | none => rw [hf] at hr; simp at hr
  | some r0 =>
    rw [hf] at hr
    simp only [Option.map_some, Option.some.injEq] at hr
    have e1 : ∀ x, (toNode now x).lastHeartbeatAt = x.lastHeartbeatAt := by
      intro x; unfold toNode; split <;> rfl
    by_cases hid : h.id = id
    · simp only [hid, if_true]
      refine ⟨_, rfl, ?_⟩
      rw [e1, ← hr, e1]
      simp only [persistNode, heartbeatRow, e1]
      split <;> simp [e1] <;> omega
    · simp only [hid, if_false]
      exact ⟨_, rfl, by rw [← hr]; exact Nat.le_refl _⟩

/-- **C36 (listing).** The active-node list shows exactly the nodes heard from in the last 5 minutes,
as `GetNodeByID` reports them. -/
theorem C36_active_nodes (now : Nat) (rows : List Node) (n : Node) :
    n ∈ getActiveNodes now rows ↔
      ∃ r ∈ rows, n = toNode now r ∧ now < r.lastHeartbeatAt + 300 := by
  simp only [getActiveNodes, List.mem_map, List.mem_filter, lastHeartbeatTimeout]
  constructor
  · rintro ⟨r, ⟨h1, h2⟩, rfl⟩; exact ⟨r, h1, rfl, by simpa using h2⟩
  · rintro ⟨r, h1, rfl, h2⟩; exact ⟨r, ⟨h1, by simpa using h2⟩, rfl⟩

/-! A concrete out-of-order history meeting the hypotheses: the late heartbeat (time 10) is ignored,
and long after (at 200) the node is reported OFFLINE. -/
def hist : List (Nat × Node) :=
  [(11, { id := 7, lastHeartbeatAt := 5, taskCount := 1 }),
   (21, { id := 7, lastHeartbeatAt := 20, taskCount := 2 }),
   (22, { id := 7, lastHeartbeatAt := 10, taskCount := 3 })]
example : Ordered hist ∧ (∀ h ∈ hist, h.1 ≤ 200) ∧
    Newest (own 7 hist) { id := 7, lastHeartbeatAt := 20, taskCount := 2 } := by
  refine ⟨by simp [Ordered, hist], by simp [hist], ?_⟩
  exact ⟨[{ id := 7, lastHeartbeatAt := 5, taskCount := 1 }],
    [{ id := 7, lastHeartbeatAt := 10, taskCount := 3 }], by simp [own, hist], by simp, by simp⟩
example : ((getNodeByID 200 7 (process hist)).map fun n => (n.lastHeartbeatAt, n.taskCount, n.status))
    = some (20, 2, .offline) := by decide

end Tork.NodeStore
