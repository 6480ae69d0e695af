import Verif.Handlers
import Verif.EvalSpec
/-!
# White space around a condition
-/

namespace Tork

theorem isSpace_iff (c : Char) : isSpace c = true ↔ White c := by
  have h : c = ' ' ↔ c.toNat = 0x20 := ⟨fun h => by rw [h]; rfl, fun h => Char.ext (UInt32.toNat_inj.1 h)⟩
  unfold isSpace White
  simp only [Bool.or_eq_true, Bool.and_eq_true, decide_eq_true_eq, List.mem_cons, List.not_mem_nil, or_false, h]
  omega

theorem dropWhile_all {p : Char → Bool} {w l : List Char} (hw : ∀ c ∈ w, p c = true) : (w ++ l).dropWhile p = l.dropWhile p := by
  induction w with
  | nil => rfl
  | cons a w ih =>
    rw [List.cons_append, List.dropWhile_cons, if_pos (hw a List.mem_cons_self)]
    exact ih fun c hc => hw c (List.mem_cons_of_mem _ hc)

theorem dropWhile_split (p : Char → Bool) (l : List Char) :
    ∃ w, (∀ c ∈ w, p c = true) ∧ l = w ++ l.dropWhile p := by
  induction l with
  | nil => exact ⟨[], by simp, rfl⟩
  | cons a l ih =>
    rw [List.dropWhile_cons]
    by_cases h : p a = true
    · obtain ⟨w, h1, h2⟩ := ih
      rw [if_pos h]
      refine ⟨a :: w, ?_, by rw [List.cons_append, ← h2]⟩
      intro c hc
      rcases List.mem_cons.1 hc with rfl | hc
      · exact h
      · exact h1 c hc
    · rw [if_neg h]
      exact ⟨[], by simp, rfl⟩

theorem trim_false (cond : String) : trimSpace cond = "false" ↔ IsFalse cond := by
  have hf : ("false" : String) = String.ofList ['f', 'a', 'l', 's', 'e'] := rfl
  unfold trimSpace
  rw [hf, String.ofList_inj]
  unfold trimList IsFalse
  constructor
  · intro h
    obtain ⟨w1, h1, h2⟩ := dropWhile_split isSpace cond.toList
    obtain ⟨w2, h3, h4⟩ := dropWhile_split isSpace (cond.toList.dropWhile isSpace).reverse
    rw [List.reverse_eq_iff] at h
    rw [h] at h4
    have h5 := congrArg List.reverse h4
    rw [List.reverse_reverse, List.reverse_append] at h5
    refine ⟨w1, w2.reverse, fun c hc => (isSpace_iff c).1 (h1 c hc), fun c hc => (isSpace_iff c).1 (h3 c (List.mem_reverse.1 hc)), ?_⟩
    rw [List.append_assoc]
    exact h2.trans (by rw [h5]; rfl)
  · rintro ⟨w1, w2, h1, h2, h3⟩
    have h1 := fun c hc => (isSpace_iff c).2 (h1 c hc)
    have h2 := fun c hc => (isSpace_iff c).2 (h2 c hc)
    rw [h3, List.append_assoc, dropWhile_all h1]
    have e1 : (['f', 'a', 'l', 's', 'e'] ++ w2).dropWhile isSpace = ['f', 'a', 'l', 's', 'e'] ++ w2 := by
      rw [List.cons_append, List.dropWhile_cons, if_neg (by decide)]
    rw [e1, List.reverse_append, dropWhile_all (fun c hc => h2 c (List.mem_reverse.1 hc))]
    rfl

end Tork
