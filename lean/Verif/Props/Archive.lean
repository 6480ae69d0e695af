import Verif.Archive
/-!
# C92 — the files of a task on their way into its container
-/

namespace Tork.Archive

theorem rounded_eq (l : Nat) : rounded l = l + padding l := by
  simp only [rounded, padding]; omega

/-- What is written is, after what was there, the files with the zeros between them. -/
def laid (F : Format) : List File → Option Bytes
  | [] => some []
  | f :: fs => match F.hdr f.name f.mode f.contents.length, laid F fs with
    | some h, some rest => some (h ++ f.contents ++ (if fs = [] then [] else List.replicate (padding f.contents.length) 0) ++ rest)
    | _, _ => none

theorem written (F : Format) (fs : List File) (a b : Arch) (h : writeFiles F fs a = some b) :
    ∃ body, laid F fs = some body ∧ b.disk = a.disk ++ (if fs = [] then [] else List.replicate a.pad 0) ++ body := by
  induction fs generalizing a with
  | nil => cases h; exact ⟨[], rfl, by simp⟩
  | cons f fs ih =>
    simp only [writeFiles, writeFile] at h
    match hh : F.hdr f.name f.mode f.contents.length with
    | none => rw [hh] at h; exact nomatch h
    | some hd =>
      rw [hh] at h
      obtain ⟨body, h1, h2⟩ := ih _ h
      refine ⟨_, by simp only [laid, hh, h1]; rfl, ?_⟩
      rw [h2]
      simp

/-- Whatever the reader takes from the laid out files, and something it takes, is these files. -/
theorem unpack_laid {F : Format} (hF : F.Good) (fs : List File) (s : Bytes) (h : laid F fs = some s) (gs : List File) :
    Unpack F s gs ↔ gs = fs := by
  induction fs generalizing s gs with
  | nil =>
    cases h
    constructor
    · intro hu
      cases hu with
      | stop => rfl
      | last _ rest n m l hp => rw [hF.none] at hp; exact nomatch hp
      | next _ rest n m l fs hp => rw [hF.none] at hp; exact nomatch hp
    · rintro rfl; exact .stop _ hF.none
  | cons f fs ih =>
    simp only [laid] at h
    split at h
    · rename_i hd rest hh hr
      injection h with h
      have hp : ∀ t, F.parse (hd ++ f.contents ++ t) = some ((f.name, f.mode, f.contents.length), f.contents ++ t) := by
        intro t; rw [List.append_assoc]; exact hF.back _ _ _ _ _ hh
      have htake : ∀ t : Bytes, (f.contents ++ t).take f.contents.length = f.contents := fun t => by simp
      have hf : ∀ t : Bytes, ({ name := f.name, mode := f.mode, contents := (f.contents ++ t).take f.contents.length } : File) = f := by
        intro t; rw [htake]
      by_cases hfs : fs = []
      · subst hfs
        simp only [if_true, List.append_nil] at h
        simp only [laid] at hr
        injection hr with hr
        subst hr
        rw [List.append_nil] at h
        subst h
        have hp := hp []
        simp only [List.append_nil] at hp
        have hf := hf []
        simp only [List.append_nil] at hf
        have hz : ∀ gs, Unpack F [] gs → gs = [] := by
          intro gs hu
          cases hu with
          | stop => rfl
          | last _ rest n m l hp => rw [hF.none] at hp; exact nomatch hp
          | next _ rest n m l fs hp => rw [hF.none] at hp; exact nomatch hp
        constructor
        · intro hu
          cases hu with
          | stop _ hp' => rw [hp] at hp'; exact nomatch hp'
          | last _ rest n m l hp' hl hlt =>
            rw [hp] at hp'; cases hp'
            rw [hf]
          | next _ rest n m l gs hp' hl hu =>
            rw [hp] at hp'; cases hp'
            rw [hf]
            have : List.drop (rounded f.contents.length) f.contents = [] := List.drop_eq_nil_of_le (by rw [rounded_eq]; exact Nat.le_add_right _ _)
            rw [this] at hu
            rw [hz _ hu]
        · rintro rfl
          by_cases hpad : padding f.contents.length = 0
          · have hr0 := rounded_eq f.contents.length
            have hn := Unpack.next (F := F) _ _ _ _ _ [] hp (by omega) (by
              rw [List.drop_eq_nil_of_le (by omega)]; exact .stop _ hF.none)
            rwa [hf] at hn
          · have hr0 := rounded_eq f.contents.length
            have hn := Unpack.last (F := F) _ _ _ _ _ hp (Nat.le_refl _) (by omega)
            rwa [hf] at hn
      · simp only [hfs, if_false] at h
        rw [List.append_assoc] at h
        subst h
        have hp := hp (List.replicate (padding f.contents.length) 0 ++ rest)
        have hdrop : (f.contents ++ (List.replicate (padding f.contents.length) 0 ++ rest)).drop (rounded f.contents.length) = rest := by
          rw [rounded_eq, ← List.append_assoc, List.drop_left' (by simp)]
        constructor
        · intro hu
          cases hu with
          | stop _ hp' => rw [hp] at hp'; exact nomatch hp'
          | last _ rest' n m l hp' hl hlt =>
            rw [hp] at hp'; cases hp'
            have hr0 := rounded_eq f.contents.length
            simp at hlt
            omega
          | next _ rest' n m l gs hp' hl hu =>
            rw [hp] at hp'; cases hp'
            rw [hdrop] at hu
            rw [hf, (ih rest hr gs).mp hu]
        · rintro rfl
          have hn := Unpack.next (F := F) _ _ _ _ _ fs hp (by rw [rounded_eq]; simp) (by rw [hdrop]; exact (ih rest hr fs).mpr rfl)
          rwa [hf] at hn
    · exact nomatch h

/-- **C92, unchanged.** What a reader of the archive finds is the files that were written, each with its name, its mode and its contents, in
their order, and no other. -/
theorem C92_unchanged {F : Format} (hF : F.Good) (fs : List File) (a : Arch) (h : writeFiles F fs {} = some a) (gs : List File) :
    Unpack F a.disk gs ↔ gs = fs := by
  obtain ⟨body, h1, h2⟩ := written F fs {} a h
  have : a.disk = body := by rw [h2]; by_cases e : fs = [] <;> simp [e]
  rw [this]
  exact unpack_laid hF fs body h1 gs

/-- **C92, refused.** If and only if the header of a file cannot be written, there is no archive. -/
theorem C92_refused (F : Format) (fs : List File) : writeFiles F fs {} = none ↔ ∃ f ∈ fs, F.hdr f.name f.mode f.contents.length = none := by
  generalize ({} : Arch) = a
  induction fs generalizing a with
  | nil => simp [writeFiles]
  | cons f fs ih =>
    simp only [writeFiles, writeFile]
    match hh : F.hdr f.name f.mode f.contents.length with
    | none => simp [hh]
    | some hd => simp only [ih, List.mem_cons, exists_eq_or_imp, hh]; simp

/-- **C92, read.** However the archive is read, in pieces of whatever lengths, a client that has come to the end has got what was written. -/
theorem C92_read (disk all : Bytes) (h : ReadAll disk .fresh all) : all = disk := by
  have key : ∀ r all, ReadAll disk r all → (r = .fresh → all = disk) ∧ ∀ rest, r = .reading rest → all = rest := by
    intro r all h
    induction h with
    | done r r' k hr =>
      constructor
      · rintro rfl
        cases hr with
        | first _ _ hr =>
          generalize disk = d at hr
          cases hr; rfl
      · rintro rest rfl
        cases hr; rfl
    | more r r' k b all hr _ ih =>
      constructor
      · rintro rfl
        cases hr with
        | first _ _ hr =>
          generalize hd : disk = d at hr
          cases hr with
          | some _ rest _ _ => rw [ih.2 rest rfl]
      · rintro rest rfl
        cases hr with
        | some _ rest _ _ => rw [ih.2 rest rfl]
  exact (key _ _ h).1 rfl

/-- **C92, the end is told.** It is possible to read to the end, in pieces of any positive length. -/
theorem C92_readable (disk : Bytes) : ReadAll disk .fresh disk := by
  have key : ∀ rest : Bytes, ReadAll disk (.reading rest) rest := by
    intro rest
    induction rest with
    | nil => exact .done _ _ 1 .eof
    | cons x t ih => exact .more _ _ 1 [x] t (.some [x] t (by simp) (by simp)) ih
  cases hd : disk with
  | nil => exact .done _ _ 1 (.first _ _ .eof)
  | cons x t =>
    have := key t
    rw [hd] at this
    exact .more _ _ 1 [x] t (.first _ _ (.some [x] t (by simp) (by simp))) this

/-- **C92, `/tork`.** It gets an empty, writable `stdout` and `progress`, and the script of the task, if it has one, as an executable
`entrypoint`. -/
theorem C92_torkdir {F : Format} (hF : F.Good) (run : Bytes) (a : Arch) (h : writeFiles F (torkdir run) {} = some a) (gs : List File)
    (hu : Unpack F a.disk gs) (f : File) : f ∈ gs ↔ f = ⟨"stdout", 0o222, []⟩ ∨ f = ⟨"progress", 0o222, []⟩ ∨ (run ≠ [] ∧ f = ⟨"entrypoint", 0o555, run⟩) := by
  rw [(C92_unchanged hF _ a h gs).mp hu]
  by_cases e : run = []
  · simp [torkdir, e]
  · simp [torkdir, e]

/-- **C92, the working directory.** It gets each file of the task, readable by all, with the task's contents, and no other. -/
theorem C92_workdir {F : Format} (hF : F.Good) (files : List (String × Bytes)) (a : Arch) (h : writeFiles F (workdir files) {} = some a) (gs : List File)
    (hu : Unpack F a.disk gs) (f : File) : f ∈ gs ↔ f.mode = 0o444 ∧ (f.name, f.contents) ∈ files := by
  rw [(C92_unchanged hF _ a h gs).mp hu]
  simp only [workdir, List.mem_map]
  constructor
  · rintro ⟨⟨n, c⟩, hm, rfl⟩; exact ⟨rfl, hm⟩
  · rintro ⟨h1, h2⟩
    refine ⟨_, h2, ?_⟩
    obtain ⟨n, m, c⟩ := f
    simp only at h1
    rw [h1]

/-- The defect: the archive is never closed. If headers come in blocks of 512 bytes, as the format says, an archive whose last file is not a multiple of 512 bytes long
does not end at a block: a reader that insists on the format would refuse it. -/
theorem C92_unterminated_defect {F : Format} (hb : ∀ n m s b, F.hdr n m s = some b → b.length % 512 = 0) (fs : List File) (f : File)
    (hf : f.contents.length % 512 ≠ 0) (a : Arch) (h : writeFiles F (fs ++ [f]) {} = some a) : a.disk.length % 512 ≠ 0 := by
  have key : ∀ (fs : List File) (x a : Arch), (x.disk.length + x.pad) % 512 = 0 → writeFiles F (fs ++ [f]) x = some a → a.disk.length % 512 ≠ 0 := by
    intro fs
    induction fs with
    | nil =>
      intro x a hx h
      simp only [List.nil_append, writeFiles, writeFile] at h
      match hh : F.hdr f.name f.mode f.contents.length with
      | none => rw [hh] at h; exact nomatch h
      | some hd =>
        rw [hh] at h
        cases h
        have := hb _ _ _ _ hh
        simp only [List.length_append, List.length_replicate]
        omega
    | cons g fs ih =>
      intro x a hx h
      simp only [List.cons_append, writeFiles, writeFile] at h
      match hh : F.hdr g.name g.mode g.contents.length with
      | none => rw [hh] at h; exact nomatch h
      | some hd =>
        rw [hh] at h
        refine ih _ a ?_ h
        have := hb _ _ _ _ hh
        simp only [List.length_append, List.length_replicate, padding]
        omega
  exact key fs {} a rfl h

/-! ### A concrete case -/

/-- A format with headers of 512 bytes for the names of one letter: the letter, the mode and the length. -/
def toy : Format where
  hdr n m s := match n.toList with
    | [c] => if c.toNat < 256 ∧ m < 65536 ∧ s < 256 then some ([UInt8.ofNat c.toNat, UInt8.ofNat (m / 256), UInt8.ofNat (m % 256), UInt8.ofNat s] ++ List.replicate 508 0) else none
    | _ => none
  parse b := match b with
    | c :: m :: m' :: s :: rest => some ((String.ofList [Char.ofNat c.toNat], m.toNat * 256 + m'.toNat, s.toNat), rest.drop 508)
    | _ => none

theorem toy_good : toy.Good := by
  refine ⟨?_, rfl⟩
  intro n m s b rest h
  simp only [toy] at h
  split at h
  · rename_i c hc
    split at h
    · rename_i hlt
      injection h with h
      subst h
      have h1 : (UInt8.ofNat c.toNat).toNat = c.toNat := by simp; omega
      have h2 : (UInt8.ofNat (m / 256)).toNat = m / 256 := by simp; omega
      have h4 : (UInt8.ofNat (m % 256)).toNat = m % 256 := by simp
      have h3 : (UInt8.ofNat s).toNat = s := by simp; omega
      show some ((String.ofList [Char.ofNat (UInt8.ofNat c.toNat).toNat], (UInt8.ofNat (m / 256)).toNat * 256 + (UInt8.ofNat (m % 256)).toNat,
        (UInt8.ofNat s).toNat), (List.replicate 508 0 ++ rest).drop 508) = _
      rw [h1, h2, h3, h4, List.drop_left' (List.length_replicate ..)]
      have hm : m / 256 * 256 + m % 256 = m := by omega
      rw [hm]
      have : String.ofList [Char.ofNat c.toNat] = n := by
        rw [Char.ofNat_toNat, ← hc, String.ofList_toList]
      rw [this]
    · exact nomatch h
  · exact nomatch h

/-- Two files; the archive ends in the middle of a block, and both are found. -/
example : ∃ a, writeFiles toy (workdir [("a", [1, 2, 3]), ("b", [4])]) {} = some a ∧ a.disk.length = 512 + 512 + 512 + 1 ∧
    Unpack toy a.disk (workdir [("a", [1, 2, 3]), ("b", [4])]) := by
  have : (writeFiles toy (workdir [("a", [1, 2, 3]), ("b", [4])]) {}).isSome = true := by decide +kernel
  obtain ⟨a, ha⟩ := Option.isSome_iff_exists.mp this
  refine ⟨a, ha, ?_, (C92_unchanged toy_good _ a ha _).mpr rfl⟩
  have : (writeFiles toy (workdir [("a", [1, 2, 3]), ("b", [4])]) {}).map (·.disk.length) = some (512 + 512 + 512 + 1) := by decide +kernel
  rw [ha] at this
  exact Option.some.inj this

end Tork.Archive
