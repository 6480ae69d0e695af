import Verif.Props.PodmanOptions
/-!
# C64 — the Podman runtime: order and results, and what goes wrong
-/

namespace Tork.Podman
open Calls

section
variable {cfg : Config}

theorem allOk_shape : ∀ cs : List Call, Spec (fun l ok => ok = true → l.map Prod.fst = cs ∧ ∀ e ∈ l, e.2.ok = true) (allOk cs)
  | [] => Spec.pure (by simp)
  | c :: cs => Spec.call fun r => Spec.ite (fun hr => (allOk_shape cs).mono fun l ok h ho => by
      obtain ⟨h1, h2⟩ := h ho
      exact ⟨by simp [h1], List.forall_mem_cons.2 ⟨hr, h2⟩⟩) fun _ => Spec.pure (by simp)

theorem mem_of_calls {l : List Ev} {cs : List Call} {c : Call} (h : l.map Prod.fst = cs) (hok : ∀ e ∈ l, e.2.ok = true) (hc : c ∈ cs) :
    ∃ r, (c, r) ∈ l ∧ r.ok = true := by
  rw [← h] at hc
  obtain ⟨⟨c', r⟩, h1, h2⟩ := List.mem_map.1 hc
  cases h2
  exact ⟨r, h1, hok _ h1⟩

theorem prepare_shape (x : Task) : Spec (fun l o => ∀ args, o = some args → createArgs cfg x = some args ∧
    (∃ r, (Call.write (workDir cfg x ++ "/entrypoint.sh") (script x), r) ∈ l ∧ r.ok = true) ∧
    ∀ f ∈ x.files, ∃ r, (Call.write (workDir cfg x ++ "/workdir/" ++ f.1) f.2, r) ∈ l ∧ r.ok = true) (prepare cfg x) := by
  refine Spec.bind (allOk_shape _) fun l1 ok h1 => Spec.ite (fun _ => Spec.pure (by simp)) fun hok => ?_
  obtain ⟨ha, hb⟩ := h1 (by simpa using hok)
  refine Spec.bind (Φ := fun _ _ => True) (fun _ _ _ _ _ => trivial) fun l2 ok _ => Spec.ite (fun _ => Spec.pure (by simp)) fun _ => ?_
  split
  · exact Spec.pure (by simp)
  · rename_i args hargs
    refine Spec.bind (allOk_shape _) fun l3 ok h3 => Spec.ite (fun _ => Spec.pure (by simp)) fun hok => Spec.pure ?_
    obtain ⟨hc, hd⟩ := h3 (by simpa using hok)
    rintro a ⟨⟩
    refine ⟨hargs, ?_, fun f hf => ?_⟩
    · obtain ⟨r, h, h'⟩ := mem_of_calls ha hb (c := .write (workDir cfg x ++ "/entrypoint.sh") (script x)) (by simp [setup])
      exact ⟨r, by simp [h], h'⟩
    · obtain ⟨r, h, h'⟩ := mem_of_calls hc hd (c := .write (workDir cfg x ++ "/workdir/" ++ f.1) f.2)
        (List.mem_flatMap.2 ⟨f, hf, by simp⟩)
      exact ⟨r, by simp [h], h'⟩

theorem doRun_success (x : Task) : Spec (fun l o => ∀ res, o = some res → Success cfg x l res) (doRun cfg x) := by
  refine Spec.call fun r0 => Spec.ite (fun _ => Spec.pure (by simp)) fun hr0 => ?_
  refine Spec.bind (Φ := fun l o => ∀ res, o = some res → ∃ l1 l2 args r2 r1 r3 w s, l = l1 ++ (.create args, r2) :: l2 ∧
    createArgs cfg x = some args ∧ (Call.write (workDir cfg x ++ "/entrypoint.sh") (script x), r1) ∈ l1 ∧ r1.ok = true ∧
    (∀ f ∈ x.files, ∃ r, (Call.write (workDir cfg x ++ "/workdir/" ++ f.1) f.2, r) ∈ l1 ∧ r.ok = true) ∧
    l2 = r3 :: (w ++ s) ∧ r2.ok = true ∧ ∃ a b c d, w = [(.start r2.text, a), (.logs r2.text, b), (.exitCode r2.text, c),
      (.read (workDir cfg x ++ "/output"), d)] ∧ a.ok = true ∧ b.ok = true ∧ c.ok = true ∧ c.text = "0" ∧ d.ok = true ∧ d.text = res) ?_ ?_
  · refine Spec.bind (prepare_shape x) fun l1 o h1 => ?_
    cases o with
    | none => exact Spec.pure (by simp)
    | some args =>
      obtain ⟨ha, ⟨r1, hw, hr1⟩, hf⟩ := h1 args rfl
      refine (contain_shape x args).mono ?_
      rintro l2 o (⟨r, -, -, rfl⟩ | ⟨r, r3, w, rl, s, rfl, hr, -, -, -, -, hres⟩)
      · simp
      · intro res ho
        exact ⟨l1, _, args, r, r1, _, w, _, rfl, ha, hw, hr1, hf, rfl, hr, hres res ho⟩
  · intro l o hl
    refine Spec.call fun r => Spec.pure fun res ho => ?_
    obtain ⟨l1, l2, args, r2, r1, r3, w, s, rfl, ha, hw, hr1, hf, rfl, hr2, a, b, c, d, rfl, h1, h2, h3, h4, h5, h6⟩ := hl res ho
    refine ⟨⟨r2.text, args, r0, r1, r2, a, b, c, d, ?_, ha, by simpa using hr0, hr1, hr2, rfl, h1, h2, h3, h4, h5, h6⟩, fun f hf' => ?_⟩
    · refine List.Sublist.cons_cons _ ?_
      refine List.Sublist.trans (List.Sublist.append (List.singleton_sublist.2 hw) (List.Sublist.cons_cons _ ?_)) (List.sublist_append_left _ _)
      exact List.Sublist.cons _ (List.sublist_append_left _ _)
    · obtain ⟨r', h, h'⟩ := hf f hf'
      exact ⟨r', by simp [h], h'⟩

theorem runAll_inOrder (t : Task) : ∀ xs, Spec (fun l ok => ok = true → InOrder cfg t t.mounts xs l) (runAll cfg t xs)
  | [] => Spec.pure fun _ => .nil
  | x :: xs => Spec.fresh fun i => by
    refine Spec.bind (doRun_success _) fun l1 o h1 => ?_
    cases o with
    | none => exact Spec.pure (by simp)
    | some r => exact (runAll_inOrder t xs).mono fun l2 ok h2 ho => .cons (h1 r rfl) (h2 ho)

theorem InOrder.congr {t t' : Task} {ms : List Mount} (h1 : t'.networks = t.networks) (h2 : t'.limits = t.limits) {xs : List Task} {l : List Ev}
    (h : InOrder cfg t' ms xs l) : InOrder cfg t ms xs l := by
  induction h with
  | nil => exact .nil
  | cons h _ ih => exact .cons (by rw [← h1, ← h2]; exact h) ih

theorem tasks_success (t : Task) : Spec (fun l o => ∀ res, o = some res → ∃ l1 l2 l3, l = l1 ++ l2 ++ l3 ∧ InOrder cfg t t.mounts t.pre l1 ∧
    Success cfg t l2 res ∧ InOrder cfg t t.mounts t.post l3) (tasks cfg t) := by
  refine Spec.bind (runAll_inOrder t t.pre) fun l1 ok h1 => Spec.ite (fun _ => Spec.pure (by simp)) fun hok =>
    Spec.bind (doRun_success t) fun l2 o h2 => ?_
  cases o with
  | none => exact Spec.pure (by simp)
  | some r =>
    refine Spec.bind (runAll_inOrder t t.post) fun l3 ok h3 => Spec.ite (fun ho => Spec.pure ?_) fun _ => Spec.pure (by simp)
    rintro res ⟨⟩
    exact ⟨l1, l2, l3, by simp, h1 (by simpa using hok), h2 r rfl, h3 ho⟩

theorem withMounts_success (t : Task) : ∀ {ms was done : List Mount}, Provided cfg was done →
    Spec (fun l o => ∀ res, o = some res → ∃ all lm l1 l2 l3 lu, l = lm ++ l1 ++ l2 ++ l3 ++ lu ∧ Provided cfg (was ++ ms) all ∧
      InOrder cfg t all t.pre l1 ∧ Success cfg { t with mounts := all } l2 res ∧ InOrder cfg t all t.post l3) (withMounts cfg t done ms)
  | [], was, done, hd => (tasks_success _).mono fun l o h res ho => by
    obtain ⟨l1, l2, l3, rfl, h1, h2, h3⟩ := h res ho
    have e1 : InOrder cfg t done t.pre l1 := InOrder.congr (t := t) (t' := { t with mounts := done }) rfl rfl h1
    have e3 : InOrder cfg t done t.post l3 := InOrder.congr (t := t) (t' := { t with mounts := done }) rfl rfl h3
    exact ⟨done, [], l1, l2, l3, [], by simp, by rw [List.append_nil]; exact hd, e1, h2, e3⟩
  | m :: ms, was, done, hd => Spec.fresh fun i => by
    refine Spec.bind (mountOne_provides m i) fun l1 o h1 => ?_
    cases o with
    | none => exact Spec.pure (by simp)
    | some m' =>
      refine Spec.bind (withMounts_success t (hd.snoc (h1 m' rfl))) fun l2 o h2 => ?_
      refine Spec.bind (Φ := fun _ _ => True) (fun _ _ _ _ _ => trivial) fun l3 _ _ => Spec.pure fun res ho => ?_
      obtain ⟨all, lm, k1, k2, k3, lu, rfl, a, b, c, d⟩ := h2 res ho
      exact ⟨all, l1 ++ lm, k1, k2, k3, lu ++ l3, by simp, by simpa using a, b, c, d⟩

end

/-- **C64 (order and result).** A run succeeds only if every mount was provided and then the pre-tasks, the task and the post-tasks ran, one after
the other in the order of the definition, each in its own container that ended with status 0; the result is what the task's own container left in its
output file. -/
theorem C64_success {cfg : Config} {t : Task} {n n' : Nat} {l : List Ev} {res : String} (h : Runs (run cfg t) n l (some res) n') :
    ∃ ms lm l1 l2 l3 lu, l = lm ++ l1 ++ l2 ++ l3 ++ lu ∧ Provided cfg t.mounts ms ∧ InOrder cfg t ms t.pre l1 ∧
      Success cfg { t with mounts := ms } l2 res ∧ InOrder cfg t ms t.post l3 :=
  (Spec.ite (fun _ => Spec.pure (by simp)) fun _ => withMounts_success t .nil :
    Spec (fun l o => ∀ res, o = some res → ∃ all lm l1 l2 l3 lu, l = lm ++ l1 ++ l2 ++ l3 ++ lu ∧ Provided cfg ([] ++ t.mounts) all ∧
      InOrder cfg t all t.pre l1 ∧ Success cfg { t with mounts := all } l2 res ∧ InOrder cfg t all t.post l3) (run cfg t)) n l _ n' h res rfl


/-! ## Ids -/

/-- the ids under which containers are registered, in the order of registration -/
def registered (l : List Ev) : List Nat := l.filterMap fun e => match e.1 with | .register i _ => some i | _ => none

theorem registered_append (l l' : List Ev) : registered (l ++ l') = registered l ++ registered l' := List.filterMap_append

theorem registered_none {l : List Ev} (h : ∀ e ∈ l, ∀ i c, e.1 ≠ .register i c) : registered l = [] := by
  refine List.filterMap_eq_nil_iff.2 fun e he => ?_
  obtain ⟨c, r⟩ := e
  cases c <;> first | rfl | exact absurd rfl (h _ he _ _)

section
variable {cfg : Config}

theorem registered_doRun (x : Task) : Spec (fun l _ => registered l = [] ∨ registered l = [x.id]) (doRun cfg x) := by
  have nil : ∀ r : Reply, ∀ c : Call, (∀ i d, c ≠ .register i d) → registered [(c, r)] = [] := fun r c h =>
    registered_none fun e he => by rw [List.mem_singleton.1 he]; exact h
  refine Spec.call fun r => Spec.ite (fun _ => Spec.pure (.inl (nil _ _ (by simp)))) fun _ => ?_
  refine Spec.bind (Φ := fun l _ => registered l = [] ∨ registered l = [x.id]) ?_ fun l o h => Spec.call fun r' => Spec.pure ?_
  · refine Spec.bind (each_prepare x) fun l1 o h1 => ?_
    have e1 : registered l1 = [] := registered_none fun e he i c hc => by simp [Prepares, made] at h1; exact absurd (h1 _ _ he) (by simp [hc])
    cases o with
    | none => exact Spec.pure (.inl (by rw [List.append_nil]; exact e1))
    | some args =>
      refine (contain_shape x args).mono ?_
      rintro l2 o (⟨r, rfl, -, -⟩ | ⟨r, r3, w, rl, s, rfl, -, -, hw, hs, -, -⟩)
      · rw [registered_append, e1]
        exact .inl rfl
      · refine .inr ?_
        have e2 : registered w = [] := registered_none fun e he i c hc => by have := hw e he; simp [Watches, hc] at this
        have e3 : registered ((Call.lookup x.id, rl) :: s) = [] := registered_none fun e he i c hc => by
          rcases List.mem_cons.1 he with rfl | he
          · cases hc
          · have := hs e he; simp [hc] at this
        rw [registered_append, e1]
        show x.id :: registered (w ++ (Call.lookup x.id, rl) :: s) = [x.id]
        rw [registered_append, e2, e3]
        rfl
  · have e : registered ((Call.mkdir (workDir cfg x), r) :: (l ++ [(.rmdir (workDir cfg x), r')])) = registered l := by
      show registered (l ++ [(.rmdir (workDir cfg x), r')]) = registered l
      rw [registered_append, nil _ _ (by simp), List.append_nil]
    rw [e]
    exact h

theorem registered_runAll {t : Task} : ∀ {xs : List Task} {n n' : Nat} {l : List Ev} {ok : Bool}, Runs (runAll cfg t xs) n l ok n' →
    (registered l).Nodup ∧ ∀ i ∈ registered l, n ≤ i ∧ i < n'
  | [], n, n', l, ok, h => by
    obtain ⟨rfl, -, -⟩ := h
    exact ⟨List.nodup_nil, by simp [registered]⟩
  | x :: xs, n, n', l, ok, h => by
    unfold runAll at h
    replace h := runs_idBind.1 h
    replace h := runs_bind.1 h
    obtain ⟨o, l1, l2, k, rfl, h1, h2⟩ := h
    have e1 : registered l1 = [] ∨ registered l1 = [n] := registered_doRun (subTask t x n) _ _ _ _ h1
    have hk := h1.le
    have hk' := h2.le
    have e2 : (registered l2).Nodup ∧ ∀ i ∈ registered l2, k ≤ i ∧ i < n' := by
      cases o with
      | none =>
        obtain ⟨rfl, -, -⟩ := h2
        exact ⟨List.nodup_nil, by simp [registered]⟩
      | some r => exact registered_runAll h2
    rw [registered_append]
    rcases e1 with e1 | e1
    · rw [e1, List.nil_append]
      exact ⟨e2.1, fun i hi => ⟨by have := (e2.2 i hi).1; omega, (e2.2 i hi).2⟩⟩
    · rw [e1, List.singleton_append]
      refine ⟨List.nodup_cons.2 ⟨fun hn => by have := (e2.2 n hn).1; omega, e2.1⟩, fun i hi => ?_⟩
      rcases List.mem_cons.1 hi with rfl | hi
      · omega
      · exact ⟨by have := (e2.2 i hi).1; omega, (e2.2 i hi).2⟩

theorem registered_tasks {t : Task} {n n' : Nat} {l : List Ev} {o : Option String} (h : Runs (tasks cfg t) n l o n') (hid : t.id < n) :
    (registered l).Nodup ∧ ∀ i ∈ registered l, i = t.id ∨ n ≤ i := by
  unfold tasks at h
  replace h := runs_bind.1 h
  obtain ⟨ok, l1, l2, k, rfl, h1, h2⟩ := h
  have a := registered_runAll h1
  have hk := h1.le
  rw [registered_append]
  rcases runs_ite h2 with ⟨-, h2⟩ | ⟨-, h2⟩
  · obtain ⟨rfl, -, -⟩ := h2
    show (registered l1 ++ []).Nodup ∧ ∀ i ∈ registered l1 ++ [], _
    rw [List.append_nil]
    exact ⟨a.1, fun i hi => .inr (a.2 i hi).1⟩
  · replace h2 := runs_bind.1 h2
    obtain ⟨o1, l3, l4, k', rfl, h3, h4⟩ := h2
    have b := registered_doRun t _ _ _ _ h3
    have hk' := h3.le
    have c : (registered l4).Nodup ∧ ∀ i ∈ registered l4, k' ≤ i := by
      cases o1 with
      | none =>
        obtain ⟨rfl, -, -⟩ := h4
        exact ⟨List.nodup_nil, by simp [registered]⟩
      | some r =>
        replace h4 := runs_bind.1 h4
        obtain ⟨ok, l5, l6, k'', rfl, h5, h6⟩ := h4
        have d := registered_runAll h5
        have e : l6 = [] := by rcases runs_ite h6 with ⟨-, h6⟩ | ⟨-, h6⟩ <;> exact h6.1
        rw [e, List.append_nil]
        exact ⟨d.1, fun i hi => (d.2 i hi).1⟩
    rw [registered_append]
    have bc : (registered l3 ++ registered l4).Nodup ∧ ∀ i ∈ registered l3 ++ registered l4, i = t.id ∨ k' ≤ i := by
      rcases b with b | b
      · rw [b, List.nil_append]
        exact ⟨c.1, fun i hi => .inr (c.2 i hi)⟩
      · rw [b, List.singleton_append]
        refine ⟨List.nodup_cons.2 ⟨fun hn => by have := c.2 _ hn; omega, c.1⟩, fun i hi => ?_⟩
        rcases List.mem_cons.1 hi with rfl | hi
        · exact .inl rfl
        · exact .inr (c.2 i hi)
    refine ⟨List.nodup_append.2 ⟨a.1, bc.1, fun i hi j hj hij => ?_⟩, fun i hi => ?_⟩
    · subst hij
      have := a.2 i hi
      rcases bc.2 i hj with h | h <;> omega
    · rcases List.mem_append.1 hi with hi | hi
      · exact .inr (a.2 i hi).1
      · rcases bc.2 i hi with h | h
        · exact .inl h
        · exact .inr (by omega)

theorem registered_withMounts {t : Task} : ∀ {ms done : List Mount} {n n' : Nat} {l : List Ev} {o : Option String},
    Runs (withMounts cfg t done ms) n l o n' → t.id < n → (registered l).Nodup ∧ ∀ i ∈ registered l, i = t.id ∨ n ≤ i
  | [], done, n, n', l, o, h, hid => registered_tasks (t := { t with mounts := done }) h hid
  | m :: ms, done, n, n', l, o, h, hid => by
    unfold withMounts at h
    replace h := runs_idBind.1 h
    replace h := runs_bind.1 h
    obtain ⟨o1, l1, l2, k, rfl, h1, h2⟩ := h
    have hk := h1.le
    have e1 : registered l1 = [] := registered_none (each_mountOne (Q := fun e => ∀ i c, e.1 ≠ .register i c) _ (by simp) (by simp) (by simp) _ _ _ _ h1)
    rw [registered_append, e1, List.nil_append]
    cases o1 with
    | none =>
      obtain ⟨rfl, -, -⟩ := h2
      exact ⟨List.nodup_nil, by simp [registered]⟩
    | some m' =>
      replace h2 := runs_bind.1 h2
      obtain ⟨o2, l3, l4, k', rfl, h3, h4⟩ := h2
      replace h4 := runs_bind.1 h4
      obtain ⟨_, l5, l6, k'', rfl, h5, rfl, -, -⟩ := h4
      have e2 : registered l5 = [] := registered_none (each_unmount (Q := fun e => ∀ i c, e.1 ≠ .register i c) _ (by simp) _ _ _ _ h5)
      rw [registered_append, List.append_nil, e2, List.append_nil]
      obtain ⟨a, b⟩ := registered_withMounts h3 (by omega)
      exact ⟨a, fun i hi => (b i hi).imp id fun h => by omega⟩

end

/-- **C64 (ids).** The containers of a run are registered under different ids: that of the task, and new ones. -/
theorem C64_own_ids {cfg : Config} {t : Task} {n n' : Nat} {l : List Ev} {o : Option String} (h : Runs (run cfg t) n l o n') (hid : t.id < n) :
    (registered l).Nodup ∧ ∀ i ∈ registered l, i = t.id ∨ n ≤ i := by
  unfold run at h
  rcases runs_ite h with ⟨-, h⟩ | ⟨-, h⟩
  · obtain ⟨rfl, -, -⟩ := h
    exact ⟨List.nodup_nil, by simp [registered]⟩
  · exact registered_withMounts h hid

/-! ## A run -/

/-- pre-task, main task with a volume, a bound directory and a file, post-task -/
def exTask : Task :=
  { id := 7, name := "main", image := "alpine", run := "make", env := [("A", "1")], files := [("in.txt", "data")], networks := ["net"],
    pre := [{ name := "before", image := "alpine", run := "fetch" }], post := [{ name := "after", image := "alpine", cmd := ["send", "it"] }],
    mounts := [{ type := "volume", target := "/data" }, { type := "bind", source := "/srv", target := "/srv" }] }

def exCfg : Config := { bindAllowed := true, bindSources := ["/srv"] }

def fine : Reply := {}

def text (s : String) : Reply := { text := s }

/-- the replies to the calls for one container: directory, five preparations, image known, `extra` files, create, …, remove -/
def exReplies (c out : String) (files : Nat) : List Reply :=
  List.replicate (7 + files) fine ++ [text c, fine, fine, fine, text "0", text out, text c, fine, fine, fine]

def exRun : Option (List Ev × Option String) :=
  play (run exCfg exTask) 100 (List.replicate 3 fine ++ exReplies "c1" "" 0 ++ exReplies "c2" "42" 2 ++ exReplies "c3" "" 0 ++ [fine])

/-- The run succeeds with the output of the main task; its table of containers is used as `Honest` says, and it makes three containers. -/
example : exRun.any (fun x => x.2 == some "42" &&
    (x.1.filterMap fun e => match e.1 with | .write p s => some (p, s) | _ => none) ==
      [("/tmp/tork/103/entrypoint.sh", "fetch"), ("/tmp/tork/7/entrypoint.sh", "make"), ("/tmp/tork/7/workdir/in.txt", "data"),
        ("/tmp/tork/104/entrypoint.sh", "send it")] &&
    (x.1.filterMap fun e => match e.1 with | .create a => some a | _ => none)[1]? ==
      some ["-v", "/tmp/tork/7:/tork", "--entrypoint", "sh", "-e", "A=1", "-e", "TORK_OUTPUT=/tork/output", "-e", "TORK_PROGRESS=/tork/progress",
        "--network", "net", "--network-alias", "main", "-v", "/tmp/tork-volume-101:/data", "-v", "/srv:/srv", "-w", "/tork/workdir", "alpine",
        "/tork/entrypoint.sh"] &&
    (x.1.filterMap fun e => match e.1 with | .rm c => some c | .rmTemp p => some p | .rmdir p => some p | _ => none) ==
      ["c1", "/tmp/tork/103", "c2", "/tmp/tork/7", "c3", "/tmp/tork/104", "/tmp/tork-volume-101"]) = true := by decide +kernel

/-- `Honest`, computed for a table that is empty at the beginning -/
def honest : List (Nat × String) → List Ev → Bool
  | _, [] => true
  | s, (c, r) :: l =>
    match c with
    | .register i x => honest ((i, x) :: s) l
    | .forget i => honest (s.filter fun e => e.1 != i) l
    | .lookup i => (if r.ok then some r.text else none) == (s.find? fun e => e.1 == i).map Prod.snd && honest s l
    | _ => honest s l

example : exRun.any (fun x => honest [] x.1) = true := by decide +kernel

/-- The policy theorem applies to this task. -/
example : ∀ x, Part exTask x → dash x.image = false := by
  rintro x (rfl | ⟨y, hy, i, rfl⟩)
  · decide +kernel
  · have : y.image = "alpine" := by
      simp only [exTask, List.cons_append, List.nil_append, List.mem_cons, List.not_mem_nil, or_false] at hy
      rcases hy with rfl | rfl <;> rfl
    show dash y.image = false
    rw [this]
    decide +kernel

/-! ## What goes wrong -/

/-- the task of the next theorem -/
def exInject : Task := { id := 7, name := "x", image := "-l", entrypoint := ["sh", "a=b", "--privileged", "alpine"], run := "true" }

def exInjected : Option (List Ev × Option String) :=
  play (run {} exInject) 100 (List.replicate 6 fine ++ [{ ok := false }, fine, fine, text "c1", fine, fine, fine, text "0", text "done", text "c1",
    fine, fine, fine])

/-- **C64 (the hypothesis on images is needed).** With an image that begins with a dash the runtime gives `podman create` an option instead: here the
operator does not allow privileged containers, the task runs in a privileged container of another image, and the run succeeds. (`podman inspect -l`
succeeds as soon as there is any container, so nothing is pulled.) -/
theorem C64_image_is_an_option : ∃ (l : List Ev) (n' : Nat) (args : List String) (r : Reply) (opts : List Opt) (rest : List String),
    ({} : Config).privileged = false ∧ Runs (run {} exInject) 100 l (some "done") n' ∧ (Call.create args, r) ∈ l ∧ r.ok = true ∧
    parse args = some (opts, rest) ∧ .flag "--privileged" ∈ opts ∧ rest.head? = some "alpine" := by
  have h : exInjected.any (fun x => x.2 == some "done" && x.1.any (fun e => match e.1 with
        | .create a => e.2.ok && (match parse a with | some (o, rest) => o.contains (.flag "--privileged") && rest.head? == some "alpine" | none => false)
        | _ => false)) = true := by decide +kernel
  cases hx : exInjected with
  | none => rw [hx] at h; cases h
  | some x =>
    rw [hx] at h
    obtain ⟨l, o⟩ := x
    obtain ⟨n', hr⟩ := play_runs hx
    simp only [Option.any_some, Bool.and_eq_true, beq_iff_eq, List.any_eq_true] at h
    obtain ⟨rfl, ⟨c, r⟩, hm, h2⟩ := h
    cases c with
    | create a =>
      simp only [Bool.and_eq_true] at h2
      obtain ⟨hok, h2⟩ := h2
      cases hp : parse a with
      | none => rw [hp] at h2; cases h2
      | some x =>
        obtain ⟨opts, rest⟩ := x
        rw [hp] at h2
        simp only [Bool.and_eq_true, beq_iff_eq, List.contains_iff_mem] at h2
        exact ⟨l, n', a, r, opts, rest, rfl, hr, hm, hok, hp, h2.1, h2.2⟩
    | _ => cases h2

theorem honest_sound {s : List (Nat × String)} {l : List Ev} (h : honest s l = true) : Honest (fun i => (s.find? fun e => e.1 == i).map Prod.snd) l := by
  induction l generalizing s with
  | nil => trivial
  | cons e l ih =>
    obtain ⟨c, r⟩ := e
    cases c <;> simp only [honest, Bool.and_eq_true, beq_iff_eq] at h <;> simp only [Honest]
    case register i x =>
      have := ih h
      have e : (fun j => if j = i then some x else (s.find? fun e => e.1 == j).map Prod.snd) = fun j => (((i, x) :: s).find? fun e => e.1 == j).map Prod.snd := by
        funext j
        by_cases hj : j = i
        · subst hj; simp
        · have : (i == j) = false := by simpa using fun h => hj h.symm
          simp [hj, this]
      rw [e]; exact this
    case forget i =>
      have := ih h
      have e : (fun j => if j = i then none else (s.find? fun e => e.1 == j).map Prod.snd) =
          fun j => ((s.filter fun e => e.1 != i).find? fun e => e.1 == j).map Prod.snd := by
        funext j
        rw [List.find?_filter]
        by_cases hj : j = i
        · subst hj
          rw [if_pos rfl]
          symm
          simp only [Option.map_eq_none_iff, List.find?_eq_none]
          simp
        · rw [if_neg hj]
          congr 2
          funext e
          by_cases h1 : e.1 = j
          · simp [h1, hj]
          · simp [h1]
      rw [e]; exact this
    case lookup i => exact ⟨h.1, ih h.2⟩
    all_goals exact ih h

/-- the task of the next theorem -/
def exTwice : Task := { id := 7, name := "x", image := "alpine", run := "true" }

def exFirst : Option (List Ev × Option String) :=
  play (run {} exTwice) 100 (List.replicate 7 fine ++ [text "c1", fine, fine, fine, text "0", text "out", text "c2", fine, fine, fine])

def exSecond : Option (List Ev × Option String) :=
  play (run {} exTwice) 100 (List.replicate 7 fine ++ [text "c2", fine, fine, { ok := false }, { ok := false }, fine])

/-- the calls of two runs, in the order in which they are made: `true` for the first run -/
def weave : List Bool → List Ev → List Ev → List (Bool × Ev)
  | true :: bs, e :: l, l' => (true, e) :: weave bs l l'
  | false :: bs, l, e :: l' => (false, e) :: weave bs l l'
  | _, l, l' => l.map (true, ·) ++ l'.map (false, ·)

def exWoven : List (Bool × Ev) :=
  weave (List.replicate 9 true ++ List.replicate 10 false ++ List.replicate 8 true) ((exFirst.map Prod.fst).getD []) ((exSecond.map Prod.fst).getD [])

/-- **C64 (the hypothesis on the table is needed).** If the same task is run twice at the same time, as it is when it is delivered again while it is
running, the second run takes the place of the first in the table: the first run succeeds but removes the container of the second, which then fails, and
its own container is never removed. -/
theorem C64_same_task_twice : ∃ (m : List (Bool × Ev)) (n' n'' : Nat),
    Runs (run {} exTwice) 100 ((m.filter Prod.fst).map Prod.snd) (some "out") n' ∧
    Runs (run {} exTwice) 100 ((m.filter (!Prod.fst ·)).map Prod.snd) none n'' ∧
    Honest (fun _ => none) (m.map Prod.snd) ∧ (∃ a, (true, (Call.create a, text "c1")) ∈ m) ∧ (∃ a, (false, (Call.create a, text "c2")) ∈ m) ∧
    (∃ r, (true, (Call.rm "c2", r)) ∈ m) ∧ ∀ b r, (b, (Call.rm "c1", r)) ∉ m := by
  have e1 : exFirst = some ((exWoven.filter Prod.fst).map Prod.snd, some "out") := by decide +kernel
  have e2 : exSecond = some ((exWoven.filter (!Prod.fst ·)).map Prod.snd, none) := by decide +kernel
  obtain ⟨n', h1⟩ := play_runs e1
  obtain ⟨n'', h2⟩ := play_runs e2
  refine ⟨exWoven, n', n'', h1, h2, honest_sound (s := []) (by decide +kernel), ?_, ?_, ?_, ?_⟩
  · exact ⟨_, show (true, (Call.create ((createArgs {} exTwice).getD []), text "c1")) ∈ exWoven by decide +kernel⟩
  · exact ⟨_, show (false, (Call.create ((createArgs {} exTwice).getD []), text "c2")) ∈ exWoven by decide +kernel⟩
  · exact ⟨fine, by decide +kernel⟩
  · have : exWoven.all (fun x => match x.2.1 with | .rm c => c != "c1" | _ => true) = true := by decide +kernel
    intro b r hm
    have := List.all_eq_true.1 this _ hm
    simp at this

/-- A volume whose directory cannot be made accessible is left behind: the exception of `C64_volumes_removed`. -/
example : (play (run {} { exTwice with mounts := [{ type := "volume", target := "/data" }] }) 100 [fine, { ok := false }]) =
    some ([(.mkTemp 101, fine), (.chmodTemp 101, { ok := false })], none) := by decide +kernel

end Tork.Podman
