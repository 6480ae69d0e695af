import Verif.Reports

/-!
# C86 — progress reports of a running task
-/

namespace Tork.Reports

variable (k : Kind) (digits : String → Option Rat)

theorem report_content (p : Value) (s : String) (sent : Bool) (l : List Turn) :
    report k digits p (.content s sent :: l) = (match readProgress k digits s with
      | none => report k digits p l
      | some v => if v.differs p then ⟨v, sent⟩ :: report k digits v l else report k digits p l) := rfl

theorem readings_content (s : String) (sent : Bool) (l : List Turn) :
    readings k digits (.content s sent :: l) = (readProgress k digits s).toList ++ readings k digits l := rfl

theorem same_of_not_differs {v p : Value} (h : ¬v.differs p = true) : v = p := by
  cases v <;> cases p <;> simp_all [Value.differs]

/-- **C86.** What is reported has been read, in this order; nothing is reported twice unless it has been read twice. -/
theorem C86_faithful (p : Value) (l : List Turn) : List.Sublist ((report k digits p l).map (·.value)) (readings k digits l) := by
  induction l generalizing p with
  | nil => exact .slnil
  | cons t l ih =>
    cases t with
    | gone => exact .slnil
    | failed => exact ih p
    | content s sent =>
      rw [report_content, readings_content]
      cases readProgress k digits s with
      | none => simpa using ih p
      | some v =>
        dsimp only [Option.toList, List.singleton_append]
        split
        · rw [List.map_cons]
          exact (ih v).cons_cons v
        · exact (ih p).cons v

theorem single_ne (p v : Value) (a b : List Value) : [p] ≠ a ++ v :: v :: b := fun e => by
  have := congrArg List.length e
  simp only [List.length_cons, List.length_nil, List.length_append] at this
  omega

/-- **C86.** No report repeats the one before it, nor the first the value that the task began with — provided that all that is read are
numbers (or infinities). -/
theorem C86_changes (p : Value) (l : List Turn) (h : ∀ v ∈ readings k digits l, v ≠ .nan) (hp : p ≠ .nan) (a b : List Value) (v : Value) :
    p :: (report k digits p l).map (·.value) ≠ a ++ v :: v :: b := by
  induction l generalizing p a with
  | nil => exact single_ne p v a b
  | cons t l ih =>
    cases t with
    | gone => exact single_ne p v a b
    | failed => exact ih p h hp a
    | content s sent =>
      rw [readings_content] at h
      rw [report_content]
      cases hr : readProgress k digits s with
      | none =>
        rw [hr] at h
        exact ih p (fun v hv => h v (by simpa using hv)) hp a
      | some w =>
        rw [hr] at h
        have hl : ∀ w ∈ readings k digits l, w ≠ .nan := fun w hw => h w (by simp [hw])
        dsimp only
        split
        · rename_i hd
          rw [List.map_cons]
          cases a with
          | nil =>
            intro e
            rw [List.nil_append] at e
            injection e with e1 e2
            injection e2 with e2 e3
            rw [e1, ← e2] at hd
            have := h w (by simp)
            dsimp only at hd
            cases w <;> simp_all [Value.differs]
          | cons x a =>
            intro e
            injection e with e1 e2
            exact ih w hl (h w (by simp)) a e2
        · exact ih p hl hp a

/-- **C86.** The last report is the last value that could be read (or that the task began with): at every moment, since `l` is any
beginning of the run. -/
theorem C86_current (p : Value) (l : List Turn) :
    (p :: (report k digits p l).map (·.value)).getLast? = (p :: readings k digits l).getLast? := by
  induction l generalizing p with
  | nil => rfl
  | cons t l ih =>
    cases t with
    | gone => rfl
    | failed => exact ih p
    | content s sent =>
      rw [report_content, readings_content]
      cases hr : readProgress k digits s with
      | none => simpa using ih p
      | some v =>
        dsimp only [Option.toList, List.singleton_append]
        rw [List.getLast?_cons_cons]
        split
        · rw [List.map_cons, List.getLast?_cons_cons]
          exact ih v
        · rename_i hd
          rw [same_of_not_differs hd]
          exact ih p

/-- **C86.** Nothing is reported after the file has gone. -/
theorem C86_gone (p : Value) (a b : List Turn) : report k digits p (a ++ .gone :: b) = report k digits p a := by
  induction a generalizing p with
  | nil => rfl
  | cons t a ih =>
    cases t with
    | gone => rfl
    | failed => exact ih p
    | content s sent =>
      rw [List.cons_append, report_content, report_content]
      simp only [ih]

/-- **C86.** A report that cannot be published is not made again: however often the same content is read afterwards, and although
publishing would succeed, nobody ever hears of it. -/
theorem C86_lost (p v : Value) (s : String) (hr : readProgress k digits s = some v) (hv : v ≠ .nan) (n : Nat) (rabbit : Bool) :
    received rabbit (report k digits p (.content s false :: List.replicate n (.content s true))) = [] := by
  have hsame : ∀ n, report k digits v (List.replicate n (.content s true)) = [] := by
    intro n
    induction n with
    | zero => rfl
    | succ n ih =>
      rw [List.replicate_succ, report_content, hr]
      dsimp only
      rw [if_neg (by cases v <;> simp_all [Value.differs])]
      exact ih
  rw [report_content, hr]
  dsimp only
  by_cases hd : v.differs p = true
  · rw [if_pos hd, hsame]
    rfl
  · have hvp : v = p := by
      cases v <;> cases p <;> simp_all [Value.differs]
    rw [if_neg hd, ← hvp, hsame]
    rfl

/-- **C86.** What is stored is a percentage — unless what arrives is not a number, which is stored as it is. -/
theorem C86_percentage (v : Value) (h : v ≠ .nan) : ∃ q : Rat, stored v = .num q ∧ 0 ≤ q ∧ q ≤ 100 := by
  cases v with
  | nan => exact absurd rfl h
  | posInf => exact ⟨100, rfl, by decide, by decide⟩
  | negInf => exact ⟨0, rfl, by decide, by decide⟩
  | num q =>
    unfold stored Value.below Value.above
    dsimp only
    by_cases h1 : q < 0
    · exact ⟨0, by simp [h1], by decide, by decide⟩
    · by_cases h2 : 100 < q
      · exact ⟨100, by simp [h1, h2], by decide, by decide⟩
      · exact ⟨q, by simp [h1, h2], by grind, by grind⟩

/-- **C86.** With RabbitMQ only finite numbers arrive, so what is stored is always a percentage. -/
theorem C86_rabbit (p : Value) (l : List Turn) {v : Value} (hv : v ∈ received true (report k digits p l)) :
    ∃ q : Rat, stored v = .num q ∧ 0 ≤ q ∧ q ≤ 100 := by
  refine C86_percentage v fun e => ?_
  subst e
  unfold received at hv
  obtain ⟨r, hr, e⟩ := List.mem_map.1 hv
  have := (List.mem_filter.1 hr).2
  rw [e] at this
  simp [Value.encodable] at this

/-- **C86.** The defect: a task whose file says "nan" (in any case, with any white space around it): it is reported at every turn, although nothing
changes, and with the broker in memory it is stored: the progress of the task is not a percentage. -/
theorem C86_nan (p : Value) (s : String) (hs : (trimSpace s).toLower = "nan") (n : Nat) :
    received false (report k digits p (List.replicate n (.content s true))) = List.replicate n .nan ∧ stored .nan = .nan := by
  refine ⟨?_, rfl⟩
  have hne : trimSpace s ≠ "" := fun e => by
    rw [e] at hs
    revert hs
    decide +kernel
  have hr : readProgress k digits s = some .nan := by
    have hp : parseFloat digits (trimSpace s) = some .nan := by
      unfold parseFloat special
      simp only [hs, if_true]
    unfold readProgress
    cases k with
    | podman =>
      have : s ≠ "" := fun e => hne (by subst e; decide +kernel)
      dsimp only
      rw [if_neg this]
      exact hp
    | docker => dsimp only; rw [if_neg hne]; exact hp
    | shell => dsimp only; rw [if_neg hne]; exact hp
  induction n generalizing p with
  | zero => rfl
  | succ n ih =>
    rw [List.replicate_succ, report_content, hr]
    dsimp only
    rw [if_pos (by cases p <;> rfl), List.replicate_succ, ← ih .nan]
    rfl

/-- **C86.** The runtimes differ on a file of white space only: for Docker and the shell it is 0, for Podman an error (if the library takes
the empty string for no number, as it does). -/
theorem C86_blank (s : String) (hs : s ≠ "") (hw : trimSpace s = "") (hd : digits "" = none) :
    readProgress .docker digits s = some (.num 0) ∧ readProgress .shell digits s = some (.num 0) ∧ readProgress .podman digits s = none := by
  unfold readProgress
  simp only [hw, if_true, if_neg hs, true_and]
  unfold parseFloat
  rw [show special "" = none by decide +kernel]
  simp [hd]

/-! ## Examples -/

/-- The library on the contents of the examples. -/
def sample (s : String) : Option Rat := if s = "10" then some 10 else if s = "250" then some 250 else none

/-- The file is empty, then says 10 twice, then nonsense, then 250, and disappears; the first report of 10 succeeds. -/
example : received false (report .docker sample (.num 0)
    [.content "" true, .content "10\n" true, .content "10\n" true, .content "ten" true, .failed, .content "250" true, .gone, .content "10" true]) =
    [.num 10, .num 250] := by decide +kernel
example : stored (.num 250) = .num 100 := by decide +kernel
example : (trimSpace " NaN\n").toLower = "nan" := by decide +kernel
example : readProgress .docker sample "10\n" = some (.num 10) := by decide +kernel
example : trimSpace " \n" = "" := by decide +kernel

end Tork.Reports
