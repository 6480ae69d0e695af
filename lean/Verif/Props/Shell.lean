import Verif.ShellRun
/-!
# C63 — the shell runtime
-/

namespace Tork.Shell
open Calls

abbrev Ev := Call × Reply

/-! ## Specification -/

/-- the call failed; a process that exits with a non-zero status, or does not exit before the task is cancelled, counts as a failure;
a failed removal or kill does not -/
def failed : Ev → Bool
  | (.rmdir _, _) | (.kill _, _) => false
  | (.wait _, r) => !r.ok || r.code != 0
  | (_, r) => !r.ok

def cleanup : Ev → Bool
  | (.rmdir _, _) | (.kill _, _) => true
  | _ => false

/-- Task `x` was run in a directory of its own: its files and its script were written there, the configured shell was started on the script
under the configured identity and exited with status 0, and `res` is what it left in its output file. -/
def Success (cfg : Config) (x : Task) (l : List Ev) (res : String) : Prop :=
  ∃ d r0 ws env r1 r2 r3 r4, l = (.mkdir d, r0) :: ws ++
      [(.spawn d (["shell", "-uid", cfg.uid, "-gid", cfg.gid] ++ cfg.shell ++ [cfg.dir d ++ "/entrypoint"]) env, r1), (.wait d, r2),
       (.read (cfg.dir d ++ "/stdout"), r3), (.rmdir d, r4)] ∧
    (∀ e ∈ ws, ∃ f c, e.1 = .write (cfg.dir d ++ "/" ++ f) c ∧ e.2.ok = true) ∧
    (∀ f ∈ x.files, ∃ r, (Call.write (cfg.dir d ++ "/" ++ f.1) f.2, r) ∈ ws) ∧
    (∃ ws' r, ws = ws' ++ [(Call.write (cfg.dir d ++ "/" ++ "entrypoint") x.run, r)]) ∧
    r0.ok = true ∧ r1.ok = true ∧ r2.ok = true ∧ r2.code = 0 ∧ r3.ok = true ∧ r3.text = res

/-- The tasks are run one after the other, up to the first that fails; `rs` are the results, `b` says if all succeeded. -/
inductive Series (cfg : Config) : List Task → List Ev → List String → Bool → Prop
  | nil : Series cfg [] [] [] true
  | fail (x : Task) (xs : List Task) (l : List Ev) : (∃ e ∈ l, failed e = true) → Series cfg (x :: xs) l [] false
  | ok (x : Task) (xs : List Task) (l l' : List Ev) (res : String) (rs : List String) (b : Bool) :
      Success cfg x l res → Series cfg xs l' rs b → Series cfg (x :: xs) (l ++ l') (res :: rs) b

/-- the fields the shell runtime does not support -/
def Unsupported (t : Task) : Prop :=
  t.id = 0 ∨ t.mounts ≠ [] ∨ t.entrypoint ≠ [] ∨ t.image ≠ "" ∨ (∃ x, t.limits = some x ∧ (x.cpus ≠ "" ∨ x.memory ≠ "")) ∨
    t.networks ≠ [] ∨ t.registry ≠ none ∨ t.cmd ≠ [] ∨ t.sidecars ≠ []

/-! ## Proofs -/

theorem supported_iff (t : Task) : supported t = false ↔ Unsupported t := by
  unfold supported Unsupported
  cases hl : t.limits with
  | none => simp; grind
  | some x => simp; grind

/-- what happens in a directory -/
inductive Mid (cfg : Config) (x : Task) (d : Nat) : List Ev → Option String → Prop
  | write (ws : List Ev) (f c : String) (r : Reply) (hw : ∀ e ∈ ws, ∃ f c, e.1 = .write (cfg.dir d ++ "/" ++ f) c ∧ e.2.ok = true) :
      r.ok = false → Mid cfg x d (ws ++ [(.write (cfg.dir d ++ "/" ++ f) c, r)]) none
  | rest (ws l : List Ev) (r1 : Reply) (o : Option String)
      (hw : ∀ e ∈ ws, ∃ f c, e.1 = .write (cfg.dir d ++ "/" ++ f) c ∧ e.2.ok = true)
      (hf : ∀ f ∈ x.files, ∃ r, (Call.write (cfg.dir d ++ "/" ++ f.1) f.2, r) ∈ ws)
      (he : ∃ ws' r, ws = ws' ++ [(Call.write (cfg.dir d ++ "/" ++ "entrypoint") x.run, r)])
      (hl : (r1.ok = false ∧ l = [] ∧ o = none) ∨
        (r1.ok = true ∧ ∃ r2, (r2.ok = false ∧ (∃ r, l = [(.wait d, r2), (.kill d, r)]) ∧ o = none) ∨
          (r2.ok = true ∧ r2.code ≠ 0 ∧ l = [(.wait d, r2)] ∧ o = none) ∨
          (r2.ok = true ∧ r2.code = 0 ∧ ∃ r3, l = [(.wait d, r2), (.read (cfg.dir d ++ "/stdout"), r3)] ∧
            o = if r3.ok then some r3.text else none))) :
      Mid cfg x d (ws ++ (.spawn d (["shell", "-uid", cfg.uid, "-gid", cfg.gid] ++ cfg.shell ++ [cfg.dir d ++ "/entrypoint"])
        (wrapperEnv cfg x d), r1) :: l) o

theorem runs_writeAll {dir : String} : ∀ {fs : StrMap} {n n' : Nat} {l : List Ev} {b : Bool}, Runs (writeAll dir fs) n l b n' →
    n' = n ∧ ((b = true ∧ l.map (·.1) = fs.map (fun f => Call.write (dir ++ "/" ++ f.1) f.2) ∧ ∀ e ∈ l, e.2.ok = true) ∨
      (b = false ∧ ∃ ws f c r, l = ws ++ [(.write (dir ++ "/" ++ f) c, r)] ∧ r.ok = false ∧
        ∀ e ∈ ws, ∃ f c, e.1 = .write (dir ++ "/" ++ f) c ∧ e.2.ok = true))
  | [], n, n', l, b, h => by
    obtain ⟨rfl, rfl, rfl⟩ := h
    exact ⟨rfl, .inl ⟨rfl, rfl, by simp⟩⟩
  | f :: fs, n, n', l, b, h => by
    replace h := runs_askBind.1 h
    obtain ⟨r, l', rfl, h⟩ := h
    replace h := runs_ite h
    rcases h with ⟨hr, h⟩ | ⟨hr, h⟩
    · replace h := runs_writeAll h
      obtain ⟨rfl, h⟩ := h
      refine ⟨rfl, ?_⟩
      rcases h with ⟨rfl, h1, h2⟩ | ⟨rfl, ws, f', c, r', rfl, h2, h3⟩
      · exact .inl ⟨rfl, by simp [h1], List.forall_mem_cons.2 ⟨hr, h2⟩⟩
      · exact .inr ⟨rfl, (.write (dir ++ "/" ++ f.1) f.2, r) :: ws, f', c, r', rfl, h2, List.forall_mem_cons.2 ⟨⟨f.1, f.2, rfl, hr⟩, h3⟩⟩
    · obtain ⟨rfl, rfl, rfl⟩ := h
      exact ⟨rfl, .inr ⟨rfl, [], f.1, f.2, r, rfl, by simpa using hr, by simp⟩⟩

theorem runs_inDir {cfg : Config} {t : Task} {d n n' : Nat} {l : List Ev} {o : Option String} (h : Runs (inDir cfg t d) n l o n') :
    n' = n ∧ Mid cfg t d l o := by
  replace h := runs_bind.1 h
  obtain ⟨ok, l1, l2, m, rfl, h1, h⟩ := h
  replace h1 := runs_writeAll h1
  obtain ⟨rfl, h1⟩ := h1
  rcases h1 with ⟨rfl, hmap, hok⟩ | ⟨rfl, ws, f, c, r, rfl, hr, hw⟩
  · have hw : ∀ e ∈ l1, ∃ f c, e.1 = .write (cfg.dir d ++ "/" ++ f) c ∧ e.2.ok = true := by
      intro e he
      have : e.1 ∈ l1.map (·.1) := List.mem_map_of_mem he
      rw [hmap, List.mem_map] at this
      obtain ⟨f, -, hf⟩ := this
      exact ⟨f.1, f.2, hf.symm, hok e he⟩
    have hmem : ∀ f ∈ filesOf t, ∃ r, (Call.write (cfg.dir d ++ "/" ++ f.1) f.2, r) ∈ l1 := by
      intro f hf
      have : Call.write (cfg.dir d ++ "/" ++ f.1) f.2 ∈ l1.map (·.1) := by
        rw [hmap, List.mem_map]; exact ⟨f, hf, rfl⟩
      obtain ⟨e, he, h2⟩ := List.mem_map.1 this
      exact ⟨e.2, by rw [← h2]; exact he⟩
    have hlast : ∃ ws' r, l1 = ws' ++ [(Call.write (cfg.dir d ++ "/" ++ "entrypoint") t.run, r)] := by
      rcases List.eq_nil_or_concat l1 with rfl | ⟨ws', e, rfl⟩
      · simp [filesOf] at hmap
      · rw [List.concat_eq_append] at hmap ⊢
        simp only [filesOf, List.map_append, List.map_cons, List.map_nil] at hmap
        have := List.append_inj' hmap rfl
        simp at this
        exact ⟨ws', e.2, by rw [← this.2]⟩
    have hfiles : ∀ f ∈ t.files, ∃ r, (Call.write (cfg.dir d ++ "/" ++ f.1) f.2, r) ∈ l1 :=
      fun f hf => hmem f (by simp [filesOf, hf])
    simp only [Bool.not_true, Bool.false_eq_true, if_false] at h
    replace h := runs_askBind.1 h
    obtain ⟨r1, l3, rfl, h⟩ := h
    replace h := runs_ite h
    rcases h with ⟨hr, h⟩ | ⟨hr, h⟩
    · obtain ⟨rfl, rfl, rfl⟩ := h
      exact ⟨rfl, .rest l1 [] r1 none hw hfiles hlast (.inl ⟨by simpa using hr, rfl, rfl⟩)⟩
    · have hr1 : r1.ok = true := by simpa using hr
      replace h := runs_askBind.1 h
      obtain ⟨r2, l4, rfl, h⟩ := h
      replace h := runs_ite h
      rcases h with ⟨hr2, h⟩ | ⟨hr2, h⟩
      · replace h := runs_askBind.1 h
        obtain ⟨r, l5, rfl, h⟩ := h
        obtain ⟨rfl, rfl, rfl⟩ := h
        exact ⟨rfl, .rest l1 _ r1 none hw hfiles hlast (.inr ⟨hr1, r2, .inl ⟨by simpa using hr2, ⟨r, rfl⟩, rfl⟩⟩)⟩
      · have hr2' : r2.ok = true := by simpa using hr2
        replace h := runs_ite h
        rcases h with ⟨hc, h⟩ | ⟨hc, h⟩
        · obtain ⟨rfl, rfl, rfl⟩ := h
          exact ⟨rfl, .rest l1 _ r1 none hw hfiles hlast (.inr ⟨hr1, r2, .inr (.inl ⟨hr2', hc, rfl, rfl⟩)⟩)⟩
        · have hc' : r2.code = 0 := by simpa using hc
          replace h := runs_askBind.1 h
          obtain ⟨r3, l5, rfl, h⟩ := h
          replace h := runs_ite h
          rcases h with ⟨hr3, h⟩ | ⟨hr3, h⟩
          · obtain ⟨rfl, rfl, rfl⟩ := h
            refine ⟨rfl, .rest l1 _ r1 _ hw hfiles hlast (.inr ⟨hr1, r2, .inr (.inr ⟨hr2', hc', r3, rfl, ?_⟩)⟩)⟩
            simp at hr3; simp [hr3]
          · obtain ⟨rfl, rfl, rfl⟩ := h
            refine ⟨rfl, .rest l1 _ r1 _ hw hfiles hlast (.inr ⟨hr1, r2, .inr (.inr ⟨hr2', hc', r3, rfl, ?_⟩)⟩)⟩
            simp at hr3; simp [hr3]
  · simp only [Bool.not_false, if_true] at h
    obtain ⟨rfl, rfl, rfl⟩ := h
    exact ⟨rfl, by simpa using Mid.write ws f c r hw hr⟩

theorem runs_doRun {cfg : Config} {t : Task} {n n' : Nat} {l : List Ev} {o : Option String} (h : Runs (doRun cfg t) n l o n') :
    n' = n + 1 ∧ ((∃ r, l = [(.mkdir n, r)] ∧ r.ok = false ∧ o = none) ∨
      ∃ r0 mid r4, l = (.mkdir n, r0) :: mid ++ [(.rmdir n, r4)] ∧ r0.ok = true ∧ Mid cfg t n mid o) := by
  replace h := runs_idBind.1 h
  replace h := runs_askBind.1 h
  obtain ⟨r0, l1, rfl, h⟩ := h
  replace h := runs_ite h
  rcases h with ⟨hr, h⟩ | ⟨hr, h⟩
  · obtain ⟨rfl, rfl, rfl⟩ := h
    exact ⟨rfl, .inl ⟨r0, rfl, by simpa using hr, rfl⟩⟩
  · replace h := runs_bind.1 h
    obtain ⟨o', mid, l2, m, rfl, h1, h⟩ := h
    replace h1 := runs_inDir h1
    obtain ⟨rfl, h1⟩ := h1
    replace h := runs_askBind.1 h
    obtain ⟨r4, l3, rfl, h⟩ := h
    obtain ⟨rfl, rfl, rfl⟩ := h
    exact ⟨rfl, .inr ⟨r0, mid, r4, rfl, by simpa using hr, h1⟩⟩

/-- a part of the run: fails exactly if a call in it fails, and then does nothing but clean up -/
structure Part (l : List Ev) (ok : Bool) : Prop where
  good : ok = true → ∀ e ∈ l, failed e = false
  bad : ok = false → ∃ e ∈ l, failed e = true
  stop : ∀ l1 e l2, l = l1 ++ e :: l2 → failed e = true → ∀ e' ∈ l2, cleanup e' = true

theorem Part.seq {l l' : List Ev} {b : Bool} (h : Part l true) (h' : Part l' b) : Part (l ++ l') b where
  good := fun hb e he => (List.mem_append.1 he).elim (h.good rfl e) (h'.good hb e)
  bad := fun hb => by
    obtain ⟨e, he, hf⟩ := h'.bad hb
    exact ⟨e, List.mem_append_right _ he, hf⟩
  stop := by
    intro l1 e l2 hl hf
    rcases List.append_eq_append_iff.1 hl with ⟨k, rfl, h2⟩ | ⟨k, rfl, h2⟩
    · cases k with
      | nil => exact h'.stop [] e l2 (by simpa using h2) hf
      | cons a k => exact h'.stop (a :: k) e l2 h2 hf
    · cases k with
      | nil => exact h'.stop [] e l2 (by simpa using h2.symm) hf
      | cons a k =>
        injection h2 with h3 h4
        subst h3
        have := h.good rfl e (by simp)
        rw [hf] at this; cases this

/-- a failure at the end, followed by cleaning up -/
theorem Part.fails {l1 l2 : List Ev} {e : Ev} (h1 : ∀ e ∈ l1, failed e = false) (he : failed e = true)
    (h2 : ∀ e ∈ l2, cleanup e = true) : Part (l1 ++ e :: l2) false where
  good := fun h => by cases h
  bad := fun _ => ⟨e, by simp, he⟩
  stop := by
    intro k1 e' k2 hl hf
    rcases List.append_eq_append_iff.1 hl with ⟨k, rfl, h3⟩ | ⟨k, rfl, h3⟩
    · cases k with
      | nil => simp at h3; obtain ⟨rfl, rfl⟩ := h3; exact h2
      | cons a k =>
        injection h3 with h4 h5
        subst h4
        have : cleanup e' = true := h2 e' (by rw [h5]; simp)
        obtain ⟨c, r⟩ := e'
        cases c <;> simp [cleanup, failed] at this hf
    · cases k with
      | nil => simp at h3; obtain ⟨rfl, rfl⟩ := h3; exact h2
      | cons a k =>
        injection h3 with h4 h5
        subst h4
        have := h1 e' (by simp)
        rw [hf] at this; cases this

theorem Part.fine {l : List Ev} (h : ∀ e ∈ l, failed e = false) : Part l true where
  good := fun _ => h
  bad := fun h => by cases h
  stop := by
    rintro l1 e l2 rfl hf
    have := h e (by simp)
    rw [hf] at this; cases this

theorem writes_fine {cfg : Config} {d : Nat} {ws : List Ev}
    (hw : ∀ e ∈ ws, ∃ f c, e.1 = .write (cfg.dir d ++ "/" ++ f) c ∧ e.2.ok = true) : ∀ e ∈ ws, failed e = false := by
  intro e he
  obtain ⟨f, c, h1, h2⟩ := hw e he
  obtain ⟨c', r⟩ := e
  simp only at h1 h2
  subst h1
  simp [failed, h2]

theorem doRun_part {cfg : Config} {t : Task} {n n' : Nat} {l : List Ev} {o : Option String} (h : Runs (doRun cfg t) n l o n') :
    Part l o.isSome := by
  obtain ⟨-, ⟨r, rfl, hr, rfl⟩ | ⟨r0, mid, r4, rfl, hr0, hm⟩⟩ := runs_doRun h
  · exact Part.fails (l1 := []) (by simp) (by simp [failed, hr]) (by simp)
  · cases hm with
    | write ws f c r hw hr =>
      have := Part.fails (l1 := (.mkdir n, r0) :: ws) (e := (.write (cfg.dir n ++ "/" ++ f) c, r)) (l2 := [(.rmdir n, r4)])
        (List.forall_mem_cons.2 ⟨by simp [failed, hr0], writes_fine hw⟩) (by simp [failed, hr]) (by simp [cleanup])
      simpa using this
    | rest ws l r1 o hw hf he hl =>
      have hws := writes_fine hw
      have h0 : ∀ e ∈ (Call.mkdir n, r0) :: ws, failed e = false := List.forall_mem_cons.2 ⟨by simp [failed, hr0], hws⟩
      rcases hl with ⟨hr1, rfl, rfl⟩ | ⟨hr1, r2, ⟨hr2, ⟨r, rfl⟩, rfl⟩ | ⟨hr2, hc, rfl, rfl⟩ | ⟨hr2, hc, r3, rfl, rfl⟩⟩
      · have := Part.fails (l1 := (.mkdir n, r0) :: ws) (l2 := [(.rmdir n, r4)]) (e := (.spawn n (argsOf cfg n) (wrapperEnv cfg t n), r1)) h0
          (by simp [failed, hr1]) (by simp [cleanup])
        simpa [argsOf] using this
      · have := Part.fails (l1 := (.mkdir n, r0) :: ws ++ [(.spawn n (["shell", "-uid", cfg.uid, "-gid", cfg.gid] ++ cfg.shell ++ [cfg.dir n ++ "/entrypoint"]) (wrapperEnv cfg t n), r1)])
          (e := (.wait n, r2)) (l2 := [(.kill n, r), (.rmdir n, r4)]) (by
            intro e he
            rcases List.mem_append.1 he with he | he
            · exact h0 e he
            · rw [List.mem_singleton.1 he]; simp [failed, hr1])
          (by simp [failed, hr2]) (by simp [cleanup])
        simpa using this
      · have := Part.fails (l1 := (.mkdir n, r0) :: ws ++ [(.spawn n (["shell", "-uid", cfg.uid, "-gid", cfg.gid] ++ cfg.shell ++ [cfg.dir n ++ "/entrypoint"]) (wrapperEnv cfg t n), r1)])
          (e := (.wait n, r2)) (l2 := [(.rmdir n, r4)]) (by
            intro e he
            rcases List.mem_append.1 he with he | he
            · exact h0 e he
            · rw [List.mem_singleton.1 he]; simp [failed, hr1])
          (by simp [failed, hc]) (by simp [cleanup])
        simpa using this
      · have h1 : ∀ e ∈ (Call.mkdir n, r0) :: ws ++ [(.spawn n (["shell", "-uid", cfg.uid, "-gid", cfg.gid] ++ cfg.shell ++ [cfg.dir n ++ "/entrypoint"]) (wrapperEnv cfg t n), r1), (.wait n, r2)], failed e = false := by
          intro e he
          rcases List.mem_append.1 he with he | he
          · exact h0 e he
          · simp at he
            rcases he with rfl | rfl
            · simp [failed, hr1]
            · simp [failed, hr2, hc]
        cases hr3 : r3.ok with
        | false =>
          have := Part.fails (l2 := [(.rmdir n, r4)]) (e := (.read (cfg.dir n ++ "/stdout"), r3)) h1 (by simp [failed, hr3]) (by simp [cleanup])
          simpa using this
        | true =>
          have := (Part.fine h1).seq (Part.fine (l := [(.read (cfg.dir n ++ "/stdout"), r3), (.rmdir n, r4)]) (by simp [failed, hr3]))
          simpa using this

theorem doRun_success {cfg : Config} {t : Task} {n n' : Nat} {l : List Ev} {res : String}
    (h : Runs (doRun cfg t) n l (some res) n') : Success cfg t l res := by
  obtain ⟨-, ⟨r, rfl, hr, h⟩ | ⟨r0, mid, r4, rfl, hr0, hm⟩⟩ := runs_doRun h
  · cases h
  · generalize ho : some res = o at hm
    cases hm with
    | write ws f c r hw hr => cases ho
    | rest ws l r1 o hw hf he hl =>
      rcases hl with ⟨hr1, rfl, rfl⟩ | ⟨hr1, r2, ⟨hr2, ⟨r, rfl⟩, rfl⟩ | ⟨hr2, hc, rfl, rfl⟩ | ⟨hr2, hc, r3, rfl, rfl⟩⟩
      · cases ho
      · cases ho
      · cases ho
      · cases hr3 : r3.ok with
        | false => simp [hr3] at ho
        | true =>
          simp [hr3] at ho
          exact ⟨n, r0, ws, wrapperEnv cfg t n, r1, r2, r3, r4, by simp [List.append_assoc], hw, hf, he, hr0, hr1, hr2, hc, hr3, ho.symm⟩

theorem runAll_series {cfg : Config} : ∀ {ts : List Task} {n n' : Nat} {l : List Ev} {b : Bool}, Runs (runAll cfg ts) n l b n' →
    Part l b ∧ ∃ rs, Series cfg ts l rs b
  | [], n, n', l, b, h => by
    obtain ⟨rfl, rfl, rfl⟩ := h
    exact ⟨.fine (by simp), [], .nil⟩
  | t :: ts, n, n', l, b, h => by
    replace h := runs_bind.1 h
    obtain ⟨o, l1, l2, m, rfl, h1, h⟩ := h
    have hp := doRun_part h1
    cases o with
    | none =>
      obtain ⟨rfl, rfl, rfl⟩ := h
      rw [List.append_nil]
      exact ⟨hp, [], .fail t ts l1 (hp.bad rfl)⟩
    | some res =>
      obtain ⟨h2, rs, h3⟩ := runAll_series h
      exact ⟨hp.seq h2, res :: rs, .ok t ts l1 l2 res rs b (doRun_success h1) h3⟩

theorem Series.length {cfg : Config} {ts : List Task} {l : List Ev} {rs : List String} {b : Bool} (h : Series cfg ts l rs b) :
    rs.length ≤ ts.length ∧ (b = true → rs.length = ts.length) ∧ (b = false → rs.length < ts.length) := by
  induction h with
  | nil => simp
  | fail x xs l _ => simp
  | ok x xs l l' res rs b _ _ ih => simp; exact ⟨ih.1, ih.2.1, ih.2.2⟩

theorem Series.append {cfg : Config} {ts ts' : List Task} {l l' : List Ev} {rs rs' : List String} {b : Bool}
    (h : Series cfg ts l rs true) (h' : Series cfg ts' l' rs' b) : Series cfg (ts ++ ts') (l ++ l') (rs ++ rs') b := by
  generalize hb : true = b0 at h
  induction h with
  | nil => simpa using h'
  | fail x xs l _ => cases hb
  | ok x xs l l'' res rs b0 hs _ ih =>
    simp only [List.cons_append, List.append_assoc]
    exact .ok x _ l _ res _ b hs (ih hb)

theorem Series.stuck {cfg : Config} {ts : List Task} (ts' : List Task) {l : List Ev} {rs : List String}
    (h : Series cfg ts l rs false) : Series cfg (ts ++ ts') l rs false := by
  generalize hb : false = b0 at h
  induction h with
  | nil => cases hb
  | fail x xs l hx => exact .fail x _ l hx
  | ok x xs l l'' res rs b0 hs _ ih => subst hb; exact .ok x _ l _ res _ false hs (ih rfl)

theorem run_series {cfg : Config} {t : Task} {n n' : Nat} {l : List Ev} {o : Option String} (h : Runs (run cfg t) n l o n')
    (hs : supported t = true) : Part l o.isSome ∧
      ∃ rs b, Series cfg (t.pre ++ t :: t.post) l rs b ∧ ∀ r, o = some r ↔ b = true ∧ rs[t.pre.length]? = some r := by
  unfold run at h
  rw [hs] at h
  replace h := runs_bind.1 h
  obtain ⟨ok, l1, l2, m, rfl, h1, h⟩ := h
  obtain ⟨p1, rs1, s1⟩ := runAll_series h1
  replace h := runs_ite h
  rcases h with ⟨hok, h⟩ | ⟨hok, h⟩
  · have : ok = false := by simpa using hok
    subst this
    obtain ⟨rfl, rfl, rfl⟩ := h
    rw [List.append_nil]
    exact ⟨p1, rs1, false, s1.stuck _, by simp⟩
  · have : ok = true := by simpa using hok
    subst this
    replace h := runs_bind.1 h
    obtain ⟨o1, l3, l4, m', rfl, h2, h⟩ := h
    have p2 := doRun_part h2
    have hlen := s1.length.2.1 rfl
    cases o1 with
    | none =>
      obtain ⟨rfl, rfl, rfl⟩ := h
      rw [List.append_nil]
      refine ⟨p1.seq p2, rs1 ++ [], false, s1.append (.fail t _ l3 (p2.bad rfl)), by simp⟩
    | some res =>
      replace h := runs_bind.1 h
      obtain ⟨ok', l5, l6, m'', rfl, h3, h⟩ := h
      obtain ⟨p3, rs3, s3⟩ := runAll_series h3
      have hser : Series cfg (t.pre ++ t :: t.post) (l1 ++ (l3 ++ l5)) (rs1 ++ res :: rs3) ok' :=
        s1.append (.ok t _ l3 l5 res rs3 ok' (doRun_success h2) s3)
      have hget : (rs1 ++ res :: rs3)[t.pre.length]? = some res := by rw [← hlen]; simp
      replace h := runs_ite h
      rcases h with ⟨hok', h⟩ | ⟨hok', h⟩
      · subst hok'
        obtain ⟨rfl, rfl, rfl⟩ := h
        rw [List.append_nil]
        refine ⟨p1.seq (p2.seq p3), _, true, hser, fun r => ?_⟩
        rw [hget]; simp
      · have : ok' = false := by simpa using hok'
        subst this
        obtain ⟨rfl, rfl, rfl⟩ := h
        rw [List.append_nil]
        exact ⟨p1.seq (p2.seq p3), _, false, hser, by simp⟩

/-! ## Theorems about runs -/

/-- **C63 (unsupported fields).** A task that uses a field the shell runtime does not support is refused before anything is done. -/
theorem C63_unsupported {cfg : Config} {t : Task} {n n' : Nat} {l : List Ev} {o : Option String} (h : Runs (run cfg t) n l o n')
    (hu : Unsupported t) : l = [] ∧ o = none := by
  unfold run at h
  rw [(supported_iff t).2 hu] at h
  obtain ⟨rfl, rfl, -⟩ := h
  exact ⟨rfl, rfl⟩

/-- **C63 (order and result).** The pre-tasks, the task and the post-tasks are run one after the other, up to the first that fails. The
run succeeds exactly when all of them did, and its result is the one of the task itself. -/
theorem C63_in_order {cfg : Config} {t : Task} {n n' : Nat} {l : List Ev} {o : Option String} (h : Runs (run cfg t) n l o n')
    (hs : ¬ Unsupported t) :
    ∃ rs b, Series cfg (t.pre ++ t :: t.post) l rs b ∧ ∀ r, o = some r ↔ b = true ∧ rs[t.pre.length]? = some r :=
  (run_series h (by rw [← Bool.not_eq_false, supported_iff]; exact hs)).2

/-- **C63 (failures).** The run fails if and only if the task is not supported or a call fails (or a process exits with a non-zero status, or
is cancelled); after the first failure nothing follows but killing the process and removing its directory. -/
theorem C63_failures {cfg : Config} {t : Task} {n n' : Nat} {l : List Ev} {o : Option String} (h : Runs (run cfg t) n l o n') :
    (o = none ↔ Unsupported t ∨ ∃ e ∈ l, failed e = true) ∧
    ∀ l1 e l2, l = l1 ++ e :: l2 → failed e = true → ∀ e' ∈ l2, cleanup e' = true := by
  by_cases hu : Unsupported t
  · obtain ⟨rfl, rfl⟩ := C63_unsupported h hu
    exact ⟨by simp [hu], by simp⟩
  · have hp := (run_series h (by rw [← Bool.not_eq_false, supported_iff]; exact hu)).1
    refine ⟨?_, hp.stop⟩
    cases o with
    | none => simpa [hu] using hp.bad rfl
    | some r =>
      have := hp.good rfl
      constructor
      · intro h; cases h
      · rintro (h | ⟨e, he, hf⟩)
        · exact absurd h hu
        · rw [this e he] at hf; cases hf

/-- Directory `d` is removed, after the process in it has ended or has been killed; only files with names below it are written, and no
other directory is used meanwhile. -/
def Tidy (cfg : Config) (d : Nat) (l : List Ev) : Prop :=
  ∃ l3 r l4, l = l3 ++ (.rmdir d, r) :: l4 ∧
    (∀ a v r', (Call.spawn d a v, r') ∈ l3 → r'.ok = true → (∃ r2, (Call.wait d, r2) ∈ l3 ∧ r2.ok = true) ∨ ∃ r2, (Call.kill d, r2) ∈ l3) ∧
    (∀ p c r', (Call.write p c, r') ∈ l3 → ∃ f, p = cfg.dir d ++ "/" ++ f) ∧
    (∀ e ∈ l3, ∀ d', e.1 = .mkdir d' ∨ e.1 = .rmdir d' ∨ e.1 = .wait d' ∨ e.1 = .kill d' ∨ (∃ a v, e.1 = .spawn d' a v) →
      d' = d ∧ e.1 ≠ .mkdir d')

def AllTidy (cfg : Config) (l : List Ev) : Prop := ∀ l1 d r l2, l = l1 ++ (.mkdir d, r) :: l2 → r.ok = true → Tidy cfg d l2

theorem Tidy.append {cfg : Config} {d : Nat} {l l' : List Ev} (h : Tidy cfg d l) : Tidy cfg d (l ++ l') := by
  obtain ⟨l3, r, l4, rfl, h1, h2, h3⟩ := h
  exact ⟨l3, r, l4 ++ l', by simp, h1, h2, h3⟩

theorem AllTidy.append {cfg : Config} {l l' : List Ev} (h : AllTidy cfg l) (h' : AllTidy cfg l') : AllTidy cfg (l ++ l') := by
  intro l1 d r l2 hl hr
  rcases List.append_eq_append_iff.1 hl with ⟨k, rfl, h2⟩ | ⟨k, rfl, h2⟩
  · exact h' k d r l2 h2 hr
  · cases k with
    | nil => exact h' [] d r l2 (by simpa using h2.symm) hr
    | cons a k =>
      injection h2 with h3 h4
      subst h3 h4
      exact (h l1 d r k rfl hr).append

theorem mid_tidy {cfg : Config} {t : Task} {d : Nat} {mid : List Ev} {o : Option String} (hm : Mid cfg t d mid o) (r4 : Reply) :
    Tidy cfg d (mid ++ [(.rmdir d, r4)]) := by
  refine ⟨mid, r4, [], rfl, ?_, ?_, ?_⟩
  · intro a v r' hmem hr'
    cases hm with
    | write ws f c r hw hr =>
      rcases List.mem_append.1 hmem with h | h
      · obtain ⟨_, _, h1, _⟩ := hw _ h; cases h1
      · simp at h
    | rest ws l r1 o hw hf he hl =>
      rcases List.mem_append.1 hmem with h | h
      · obtain ⟨_, _, h1, _⟩ := hw _ h; cases h1
      · rcases hl with ⟨hr1, rfl, rfl⟩ | ⟨hr1, r2, ⟨hr2, ⟨r, rfl⟩, rfl⟩ | ⟨hr2, hc, rfl, rfl⟩ | ⟨hr2, hc, r3, rfl, rfl⟩⟩
        · simp at h; rw [h.2, hr1] at hr'; cases hr'
        · exact .inr ⟨r, by simp⟩
        · exact .inl ⟨r2, by simp, hr2⟩
        · exact .inl ⟨r2, by simp, hr2⟩
  · intro p c r' hmem
    cases hm with
    | write ws f c' r hw hr =>
      rcases List.mem_append.1 hmem with h | h
      · obtain ⟨f, _, h1, _⟩ := hw _ h; cases h1; exact ⟨f, rfl⟩
      · simp at h; exact ⟨f, h.1.1⟩
    | rest ws l r1 o hw hf he hl =>
      rcases List.mem_append.1 hmem with h | h
      · obtain ⟨f, _, h1, _⟩ := hw _ h; cases h1; exact ⟨f, rfl⟩
      · rcases hl with ⟨hr1, rfl, rfl⟩ | ⟨hr1, r2, ⟨hr2, ⟨r, rfl⟩, rfl⟩ | ⟨hr2, hc, rfl, rfl⟩ | ⟨hr2, hc, r3, rfl, rfl⟩⟩ <;> simp at h
  · rintro ⟨c, r⟩ hmem d' hd
    cases hm with
    | write ws f c' r hw hr =>
      rcases List.mem_append.1 hmem with h | h
      · obtain ⟨f, _, h1, _⟩ := hw _ h; simp only at h1; subst h1; simp at hd
      · simp at h; obtain ⟨rfl, rfl⟩ := h; simp at hd
    | rest ws l r1 o hw hf he hl =>
      rcases List.mem_append.1 hmem with h | h
      · obtain ⟨f, _, h1, _⟩ := hw _ h; simp only at h1; subst h1; simp at hd
      · rcases hl with ⟨hr1, rfl, rfl⟩ | ⟨hr1, r2, ⟨hr2, ⟨r, rfl⟩, rfl⟩ | ⟨hr2, hc, rfl, rfl⟩ | ⟨hr2, hc, r3, rfl, rfl⟩⟩ <;>
          simp at h <;> grind

theorem doRun_tidy {cfg : Config} {t : Task} {n n' : Nat} {l : List Ev} {o : Option String} (h : Runs (doRun cfg t) n l o n') :
    AllTidy cfg l := by
  obtain ⟨-, ⟨r, rfl, hr, rfl⟩ | ⟨r0, mid, r4, rfl, hr0, hm⟩⟩ := runs_doRun h
  · intro l1 d r' l2 hl hr'
    cases l1 with
    | nil => injection hl with h1 h2; cases h1; rw [hr] at hr'; cases hr'
    | cons a l1 => simp at hl
  · have ht := mid_tidy hm r4
    intro l1 d r' l2 hl hr'
    cases l1 with
    | nil => injection hl with h1 h2; cases h1; subst h2; exact ht
    | cons a l1 =>
      exfalso
      injection hl with h1 h2
      have hmem : (Call.mkdir d, r') ∈ mid ++ [(Call.rmdir n, r4)] := by
        have : mid ++ [(Call.rmdir n, r4)] = l1 ++ (Call.mkdir d, r') :: l2 := h2
        rw [this]; simp
      have hin : (Call.mkdir d, r') ∈ mid := by
        rcases List.mem_append.1 hmem with hq | hq
        · exact hq
        · simp at hq
      cases hm with
      | write ws f c' r hw hr =>
        rcases List.mem_append.1 hin with hq | hq
        · obtain ⟨_, _, h1, _⟩ := hw _ hq; cases h1
        · simp at hq
      | rest ws l r1 o hw hf he hl =>
        rcases List.mem_append.1 hin with hq | hq
        · obtain ⟨_, _, h1, _⟩ := hw _ hq; cases h1
        · rcases hl with ⟨hr1, rfl, rfl⟩ | ⟨hr1, r2, ⟨hr2, ⟨r, rfl⟩, rfl⟩ | ⟨hr2, hc, rfl, rfl⟩ | ⟨hr2, hc, r3, rfl, rfl⟩⟩ <;> simp at hq

theorem runAll_tidy {cfg : Config} : ∀ {ts : List Task} {n n' : Nat} {l : List Ev} {b : Bool}, Runs (runAll cfg ts) n l b n' → AllTidy cfg l
  | [], n, n', l, b, h => by obtain ⟨rfl, rfl, rfl⟩ := h; intro l1 d r l2 hl; simp at hl
  | t :: ts, n, n', l, b, h => by
    replace h := runs_bind.1 h
    obtain ⟨o, l1, l2, m, rfl, h1, h⟩ := h
    cases o with
    | none => obtain ⟨rfl, rfl, rfl⟩ := h; rw [List.append_nil]; exact doRun_tidy h1
    | some res => exact (doRun_tidy h1).append (runAll_tidy h)

/-- **C63 (clean-up).** Every directory made during a run is removed before the next one is made and before the run returns, whatever fails
and whenever the task is cancelled, and the process started in it has ended or was killed by then. -/
theorem C63_tidy {cfg : Config} {t : Task} {n n' : Nat} {l : List Ev} {o : Option String} (h : Runs (run cfg t) n l o n')
    {l1 l2 : List Ev} {d : Nat} {r : Reply} (hl : l = l1 ++ (.mkdir d, r) :: l2) (hr : r.ok = true) : Tidy cfg d l2 := by
  have key : AllTidy cfg l := by
    unfold run at h
    replace h := runs_ite h
    rcases h with ⟨-, h⟩ | ⟨-, h⟩
    · obtain ⟨rfl, -, -⟩ := h; intro l1 d r l2 hl; simp at hl
    · replace h := runs_bind.1 h
      obtain ⟨ok, l1, l2, m, rfl, h1, h⟩ := h
      refine (runAll_tidy h1).append ?_
      replace h := runs_ite h
      rcases h with ⟨-, h⟩ | ⟨-, h⟩
      · obtain ⟨rfl, -, -⟩ := h; intro l1 d r l2 hl; simp at hl
      · replace h := runs_bind.1 h
        obtain ⟨o1, l3, l4, m', rfl, h2, h⟩ := h
        refine (doRun_tidy h2).append ?_
        cases o1 with
        | none => obtain ⟨rfl, -, -⟩ := h; intro l1 d r l2 hl; simp at hl
        | some res =>
          replace h := runs_bind.1 h
          obtain ⟨ok', l5, l6, m'', rfl, h3, h⟩ := h
          refine (runAll_tidy h3).append ?_
          replace h := runs_ite h
          rcases h with ⟨-, h⟩ | ⟨-, h⟩ <;>
            (obtain ⟨rfl, -, -⟩ := h; intro l1 d r l2 hl; simp at hl)
  exact key l1 d r l2 hl hr

end Tork.Shell
