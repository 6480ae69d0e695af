import Verif.DockerLogs
/-!
# C67 — logs of containers

`fs` is what the container has written, piece by piece; `stream fs` is what the daemon sends, `written fs` the bytes written.
-/

namespace Tork.DockerLogs

theorem fill_full {k : Nat} {d : List UInt8} (h : d.length = k) : fill k d = d := by simp [fill, h]

theorem toNat_ofNat {n : Nat} (h : n < 256) : (UInt8.ofNat n).toNat = n := by
  simp [UInt8.toNat_ofNat', Nat.mod_eq_of_lt h]

theorem count_header {f : Frame} (h : f.Valid) : count ([f.stream, 0, 0, 0] ++ be32 f.data.length) = f.data.length := by
  unfold Frame.Valid at h
  simp only [count, be32, List.cons_append, List.nil_append, List.getD_eq_getElem?_getD, List.getElem?_cons_succ, List.getElem?_cons_zero,
    Option.getD_some]
  rw [toNat_ofNat (by omega), toNat_ofNat (by omega), toNat_ofNat (by omega), toNat_ofNat (by omega)]
  omega

theorem read_frame {f : Frame} {rest : List UInt8} {cap n : Nat} {out s' : List UInt8} {eof : Bool} (hv : f.Valid)
    (h : LogRead Read.Whole (f.bytes ++ rest) cap n out s' eof) :
    n = f.data.length ∧ out = f.data.take cap ∧ s' = rest ∧ (eof = true → rest = []) := by
  cases h with
  | mk h1 h2 =>
    rename_i hd s1 d e1
    obtain ⟨h1, rfl⟩ := h1
    obtain ⟨h2, rfl⟩ := h2
    have hb : f.bytes ++ rest = ([f.stream, 0, 0, 0] ++ be32 f.data.length) ++ (f.data ++ rest) := by simp [Frame.bytes]
    have hl : ([f.stream, 0, 0, 0] ++ be32 f.data.length).length = 8 := by simp [be32]
    have ht : (f.bytes ++ rest).take 8 = [f.stream, 0, 0, 0] ++ be32 f.data.length := by
      rw [hb, List.take_append_of_le_length (Nat.le_of_eq hl.symm), List.take_of_length_le (Nat.le_of_eq hl)]
    have hs : s1 = f.data ++ rest := by
      have := h1.split
      rw [ht, hb] at this
      exact (List.append_cancel_left this).symm
    have hc : count (fill 8 ((f.bytes ++ rest).take 8)) = f.data.length := by rw [ht, fill_full hl, count_header hv]
    rw [hc] at h2 ⊢
    subst hs
    have hd : (f.data ++ rest).take f.data.length = f.data := by simp
    have hs2 := h2.split
    rw [hd] at hs2 ⊢
    have hs2 : s' = rest := (List.append_cancel_left hs2).symm
    subst hs2
    exact ⟨rfl, by rw [fill_full rfl], rfl, h2.atEnd⟩

theorem read_end {cap n : Nat} {out s' : List UInt8} {eof : Bool} (h : LogRead Read.Whole [] cap n out s' eof) :
    n = 0 ∧ out = [] ∧ s' = [] ∧ eof = true := by
  cases h with
  | mk h1 h2 =>
    obtain ⟨h1, rfl⟩ := h1
    obtain ⟨h2, rfl⟩ := h2
    have h3 := h1.split
    simp only [List.take_nil, List.nil_append] at h3
    subst h3
    have h4 := h2.split
    simp only [List.take_nil, List.nil_append] at h4
    subst h4
    have hz : count (fill 8 (List.take 8 [])) = 0 := by decide
    exact ⟨hz, by rw [hz]; exact List.take_nil, rfl, h2.nothing rfl⟩

theorem stream_cons (f : Frame) (fs : List Frame) : stream (f :: fs) = f.bytes ++ stream fs := rfl

theorem stream_nil_iff {fs : List Frame} (h : stream fs = []) : fs = [] := by
  cases fs with
  | nil => rfl
  | cons f fs => simp [stream, Frame.bytes] at h

/-- C67, exactly what reaches the log, for every size of buffer: of every piece written as much as fits into the buffer; if the connection
breaks, a prefix of that. -/
theorem C67_cut {cap : Nat} {fs : List Frame} {out : List UInt8} {ok : Bool} (hv : ∀ f ∈ fs, f.Valid)
    (h : Copied Read.Whole cap (stream fs) out ok) :
    out <+: fs.flatMap (fun f => f.data.take cap) ∧ (ok = true → out = fs.flatMap fun f => f.data.take cap) := by
  generalize hs : stream fs = s at h
  induction h generalizing fs with
  | last hr =>
    cases fs with
    | nil =>
      rw [← hs] at hr
      obtain ⟨-, rfl, -⟩ := read_end hr
      exact ⟨List.nil_prefix, fun _ => rfl⟩
    | cons f fs =>
      rw [← hs, stream_cons] at hr
      obtain ⟨-, rfl, -, h4⟩ := read_frame (hv f (List.mem_cons_self ..)) hr
      cases stream_nil_iff (h4 rfl)
      have e : [f].flatMap (fun f => f.data.take cap) = f.data.take cap := by simp
      rw [e]
      exact ⟨List.prefix_refl _, fun _ => rfl⟩
  | more hr _ ih =>
    cases fs with
    | nil =>
      rw [← hs] at hr
      obtain ⟨-, -, -, h4⟩ := read_end hr
      cases h4
    | cons f fs =>
      rw [← hs, stream_cons] at hr
      obtain ⟨-, rfl, rfl, -⟩ := read_frame (hv f (List.mem_cons_self ..)) hr
      obtain ⟨h1, h2⟩ := ih (fun g hg => hv g (List.mem_cons_of_mem _ hg)) rfl
      rw [List.flatMap_cons]
      exact ⟨(List.prefix_append_right_inj _).2 h1, fun hok => by rw [h2 hok]⟩
  | broken => exact ⟨List.nil_prefix, fun h => by cases h⟩

theorem flatMap_take {cap : Nat} {fs : List Frame} (hc : ∀ f ∈ fs, f.data.length ≤ cap) :
    fs.flatMap (fun f => f.data.take cap) = written fs := by
  induction fs with
  | nil => rfl
  | cons f fs ih =>
    rw [List.flatMap_cons, ih fun g hg => hc g (List.mem_cons_of_mem _ hg), List.take_of_length_le (hc f (List.mem_cons_self ..))]
    rfl

/-- C67: if the connection delivers headers and data in one piece each and nothing was written in pieces larger than 32 KiB, the log of a
container gets exactly what the container has written, in that order; a prefix of it if the connection breaks. -/
theorem C67_log {fs : List Frame} {out : List UInt8} {ok : Bool} (hc : ∀ f ∈ fs, f.data.length ≤ copyBuf)
    (h : Copied Read.Whole copyBuf (stream fs) out ok) : out <+: written fs ∧ (ok = true → out = written fs) := by
  have := C67_cut (fun f hf => Nat.lt_of_le_of_lt (hc f hf) (by decide)) h
  rwa [flatMap_take hc] at this

/-- C67, the copying ends: every read that does not report the end consumes something. (For every connection.) -/
theorem C67_ends {cap n : Nat} {s out s' : List UInt8} (h : LogRead Read s cap n out s' false) : s'.length < s.length := by
  generalize he : false = eof at h
  cases h with
  | mk h1 h2 =>
    rename_i hd s1 d e1
    have hs := h1.split
    have hs2 := h2.split
    have hne : s ≠ [] := by
      rintro rfl
      have : s1 = [] := by
        have := h1.split
        simp only [List.nil_eq, List.append_eq_nil_iff] at this
        exact this.2
      have := h2.nothing this
      rw [← he] at this
      cases this
    have := h1.some hne (by decide)
    have hp : 0 < hd.length := List.length_pos_iff.2 this
    rw [hs, hs2]
    simp only [List.length_append]
    omega

/-- C67, the text of an error (`exit code …: …`) is what the container's last lines say if these are at most 512 bytes. -/
theorem C67_error_text {grow : Nat → Nat} {fs : List Frame} {out : List UInt8} (hl : (written fs).length ≤ firstBuf)
    (h : ReadAll Read.Whole grow [] firstBuf (stream fs) out) : out = written fs := by
  suffices H : ∀ {acc : List UInt8} {cap : Nat} {s out : List UInt8} {fs : List Frame}, ReadAll Read.Whole grow acc cap s out → stream fs = s →
      (∀ f ∈ fs, f.Valid) → acc.length + (written fs).length ≤ cap ∨ written fs = [] → out = acc ++ written fs by
    refine H h rfl (fun f hf => ?_) (.inl (by simpa using hl))
    have : f.data.length ≤ (written fs).length := by
      clear h hl
      induction fs with
      | nil => cases hf
      | cons g fs ih =>
        have e : (written (g :: fs)).length = g.data.length + (written fs).length := by simp [written]
        rcases List.mem_cons.1 hf with rfl | hf
        · omega
        · have := ih hf; omega
    have hb : firstBuf = 512 := rfl
    unfold Frame.Valid
    omega
  clear h hl
  intro acc cap s out fs h hs hv hl
  have hw : ∀ (f : Frame) (fs : List Frame), written (f :: fs) = f.data ++ written fs := fun _ _ => rfl
  have htake : ∀ (f : Frame) (fs : List Frame) (acc : List UInt8) (cap : Nat),
      acc.length + (written (f :: fs)).length ≤ cap ∨ written (f :: fs) = [] → f.data.take (cap - acc.length) = f.data := by
    intro f fs acc cap h
    apply List.take_of_length_le
    rcases h with h | h
    · simp only [hw, List.length_append] at h; omega
    · rw [hw, List.append_eq_nil_iff] at h
      simp [h.1]
  induction h generalizing fs with
  | last hr =>
    cases fs with
    | nil =>
      rw [← hs] at hr
      obtain ⟨-, rfl, -⟩ := read_end hr
      rfl
    | cons f fs =>
      rw [← hs, stream_cons] at hr
      obtain ⟨-, rfl, -, h4⟩ := read_frame (hv f (List.mem_cons_self ..)) hr
      cases stream_nil_iff (h4 rfl)
      rw [htake _ _ _ _ hl, hw]
      exact congrArg _ (List.append_nil _).symm
  | more hr _ ih =>
    cases fs with
    | nil =>
      rw [← hs] at hr
      obtain ⟨-, -, -, h4⟩ := read_end hr
      cases h4
    | cons f fs =>
      rw [← hs, stream_cons] at hr
      obtain ⟨-, rfl, rfl, -⟩ := read_frame (hv f (List.mem_cons_self ..)) hr
      rw [htake _ _ _ _ hl] at ih
      rw [hw, ← List.append_assoc]
      refine ih rfl (fun g hg => hv g (List.mem_cons_of_mem _ hg)) ?_
      rcases hl with hl | hl
      · simp only [hw, List.length_append] at hl ⊢
        split
        · right
          apply List.eq_nil_of_length_eq_zero
          omega
        · left; omega
      · rw [hw, List.append_eq_nil_iff] at hl
        exact .inr hl.2

/-- C67, a defect: the text of an error is cut in the middle. If the first line has 511 bytes, only one byte of the second is kept. -/
theorem C67_error_text_cut {grow : Nat → Nat} {a b : Frame} {out : List UInt8} (ha : a.data.length = 511) (hb : b.Valid)
    (h : ReadAll Read.Whole grow [] firstBuf (stream [a, b]) out) : out = a.data ++ b.data.take 1 := by
  have hav : a.Valid := by unfold Frame.Valid; omega
  have h0 : stream [a, b] = a.bytes ++ (b.bytes ++ stream []) := rfl
  rw [h0] at h
  have key : ∀ {acc : List UInt8} {cap : Nat} {out : List UInt8}, ReadAll Read.Whole grow acc cap (stream []) out → out = acc := by
    intro acc cap out h
    cases h with
    | last hr => obtain ⟨-, rfl, -⟩ := read_end hr; exact List.append_nil _
    | more hr _ => obtain ⟨-, -, -, h4⟩ := read_end hr; cases h4
  have hta : a.data.take (firstBuf - ([] : List UInt8).length) = a.data := List.take_of_length_le (by rw [ha]; decide)
  cases h with
  | last hr =>
    obtain ⟨-, -, -, h4⟩ := read_frame hav hr
    have := h4 rfl
    simp [Frame.bytes] at this
  | more hr h =>
    obtain ⟨-, rfl, rfl, -⟩ := read_frame hav hr
    rw [hta] at h
    have hc : (if ([] ++ a.data).length = firstBuf then grow firstBuf else firstBuf) = firstBuf := by
      rw [if_neg (by rw [List.nil_append, ha]; decide)]
    rw [hc] at h
    have h1 : firstBuf - ([] ++ a.data).length = 1 := by rw [List.nil_append, ha]; decide
    cases h with
    | last hr =>
      obtain ⟨-, rfl, -, -⟩ := read_frame hb hr
      rw [h1]; rfl
    | more hr h =>
      obtain ⟨-, rfl, rfl, -⟩ := read_frame hb hr
      rw [key h, h1]; rfl

/-! ## Connections that deliver less at a time -/

/-- `n` bytes have been allocated at some time. -/
inductive Allocates (R : Reader) (cap : Nat) : (s : List UInt8) → (n : Nat) → Prop
  | here {s o s' : List UInt8} {n : Nat} {eof : Bool} : LogRead R s cap n o s' eof → Allocates R cap s n
  | later {s o s' : List UInt8} {n k : Nat} : LogRead R s cap k o s' false → Allocates R cap s' n → Allocates R cap s n

/-- Without pieces delivered in parts the memory needed is that of the largest piece. -/
theorem C67_memory {cap n : Nat} {fs : List Frame} (hv : ∀ f ∈ fs, f.Valid) (h : Allocates Read.Whole cap (stream fs) n) :
    n = 0 ∨ ∃ f ∈ fs, n = f.data.length := by
  generalize hs : stream fs = s at h
  induction h generalizing fs with
  | here hr =>
    cases fs with
    | nil =>
      rw [← hs] at hr
      exact .inl (read_end hr).1
    | cons f fs =>
      rw [← hs, stream_cons] at hr
      exact .inr ⟨f, List.mem_cons_self .., (read_frame (hv f (List.mem_cons_self ..)) hr).1⟩
  | later hr _ ih =>
    cases fs with
    | nil =>
      rw [← hs] at hr
      obtain ⟨-, -, -, h4⟩ := read_end hr
      cases h4
    | cons f fs =>
      rw [← hs, stream_cons] at hr
      obtain ⟨-, -, rfl, -⟩ := read_frame (hv f (List.mem_cons_self ..)) hr
      rcases ih (fun g hg => hv g (List.mem_cons_of_mem _ hg)) rfl with h | ⟨g, hg, h⟩
      · exact .inl h
      · exact .inr ⟨g, List.mem_cons_of_mem _ hg, h⟩

/-- A piece that looks, from its second byte on, like a header for 4 GiB. -/
def evil : Frame := ⟨1, [97, 1, 0, 0, 0, 255, 255, 255, 255, 98]⟩

/-- C67, a defect: a connection that delivers the data of a piece in two parts (as a network connection may) makes the reader take the second
part for a header: what was written is not what is read, and the container decides how much memory the worker allocates: here ten bytes of
output make it allocate 4 GiB. -/
theorem C67_split_data : Allocates Read copyBuf (stream [evil]) (2 ^ 32 - 1) ∧
    ∃ out, Copied Read copyBuf (stream [evil]) out true ∧ ¬ out <+: written [evil] := by
  have r1 : Read (stream [evil]) 8 [1, 0, 0, 0, 0, 0, 0, 10] [97, 1, 0, 0, 0, 255, 255, 255, 255, 98] false :=
    ⟨by decide, by decide, by decide, by decide, by decide⟩
  have c1 : count (fill 8 [1, 0, 0, 0, 0, 0, 0, 10]) = 10 := by decide
  have r2 : Read [97, 1, 0, 0, 0, 255, 255, 255, 255, 98] (count (fill 8 [1, 0, 0, 0, 0, 0, 0, 10])) [97] [1, 0, 0, 0, 255, 255, 255, 255, 98] false := by
    rw [c1]; exact ⟨by decide, by decide, by decide, by decide, by decide⟩
  have r3 : Read [1, 0, 0, 0, 255, 255, 255, 255, 98] 8 [1, 0, 0, 0, 255, 255, 255, 255] [98] false :=
    ⟨by decide, by decide, by decide, by decide, by decide⟩
  have c2 : count (fill 8 [1, 0, 0, 0, 255, 255, 255, 255]) = 2 ^ 32 - 1 := by decide
  have r4 : Read [98] (count (fill 8 [1, 0, 0, 0, 255, 255, 255, 255])) [98] [] true := by
    rw [c2]; exact ⟨by decide, by decide, by decide, by decide, by decide⟩
  refine ⟨.later (.mk r1 r2) (c2 ▸ .here (.mk r3 r4)), ?_⟩
  have o1 : (fill (count (fill 8 [1, 0, 0, 0, 0, 0, 0, 10])) [97]).take copyBuf = [97, 0, 0, 0, 0, 0, 0, 0, 0, 0] := by rw [c1]; decide
  refine ⟨_, .more (.mk r1 r2) (.last (.mk r3 r4)), ?_⟩
  rw [o1]
  generalize (fill (count (fill 8 [1, 0, 0, 0, 255, 255, 255, 255])) [98]).take copyBuf = x
  intro h
  have : written [evil] = [97, 1, 0, 0, 0, 255, 255, 255, 255, 98] := by decide
  rw [this] at h
  simp only [List.cons_append, List.cons_prefix_cons] at h
  exact absurd h.2.1 (by decide)

/-! ## Examples -/

/-- The log of every container can be copied to its end. -/
theorem copied_exists {cap : Nat} {fs : List Frame} (hv : ∀ f ∈ fs, f.Valid) : ∃ out, Copied Read.Whole cap (stream fs) out true := by
  have w : ∀ (s : List UInt8) (k : Nat) (e : Bool), e = decide (s = []) → Read.Whole s k (s.take k) (s.drop k) e := by
    rintro s k e rfl
    refine ⟨⟨(List.take_append_drop ..).symm, List.length_take_le .., fun h1 h2 => ?_, fun h => ?_, fun h => by simp [h]⟩, rfl⟩
    · simp only [ne_eq, List.take_eq_nil_iff, not_or]; exact ⟨by omega, h1⟩
    · simp only [decide_eq_true_eq] at h; simp [h]
  induction fs with
  | nil => exact ⟨_, .last (.mk (w [] 8 true rfl) (w _ _ true rfl))⟩
  | cons f fs ih =>
    obtain ⟨out, ih⟩ := ih fun g hg => hv g (List.mem_cons_of_mem _ hg)
    have hr : ∃ n o s' e, LogRead Read.Whole (stream (f :: fs)) cap n o s' e := ⟨_, _, _, _, .mk (w _ 8 _ rfl) (w _ _ _ rfl)⟩
    obtain ⟨n, o, s', e, r⟩ := hr
    rw [stream_cons] at r
    obtain ⟨-, -, rfl, h4⟩ := read_frame (hv f (List.mem_cons_self ..)) r
    cases e with
    | true => exact ⟨_, .last r⟩
    | false => exact ⟨_, .more r ih⟩

/-- Two lines, on two streams: the log gets both. -/
example : ∃ out, Copied Read.Whole copyBuf (stream [⟨1, [104, 105]⟩, ⟨2, [33]⟩]) out true ∧ out = [104, 105, 33] := by
  obtain ⟨out, h⟩ := copied_exists (cap := copyBuf) (fs := [⟨1, [104, 105]⟩, ⟨2, [33]⟩]) (by simp [Frame.Valid])
  exact ⟨out, h, (C67_log (by decide +kernel) h).2 rfl⟩

end Tork.DockerLogs
