import Verif.RabbitTopic
import Verif.Props.Wildcard
/-!
# C66 — events through RabbitMQ

`Wildcard.Matches` (C24, C32) says what the in-memory broker delivers, `Delivered` what RabbitMQ delivers.
-/

namespace Tork.RabbitTopic
open Tork.Wildcard (star Matches)

/-- Every `*` of the pattern is a word of its own, and there is no `#`. -/
def Wordwise (pattern : List UInt8) : Prop := ∀ w ∈ words pattern, w = [star] ∨ (star ∉ w ∧ hash ∉ w)

theorem words_ne_nil (w : List UInt8) : words w ≠ [] := by
  induction w with
  | nil => simp [words]
  | cons c w ih =>
    unfold words
    split
    · simp
    · split <;> simp

theorem words_dot (s : List UInt8) : words (dot :: s) = [] :: words s := by rw [words, if_pos rfl]

theorem words_char {c : UInt8} {s w : List UInt8} {ws : List (List UInt8)} (hc : c ≠ dot) (h : words s = w :: ws) :
    words (c :: s) = (c :: w) :: ws := by rw [words, if_neg hc, h]

theorem words_append (a b : List UInt8) : words (a ++ dot :: b) = words a ++ words b := by
  induction a with
  | nil => exact words_dot b
  | cons c a ih =>
    rw [List.cons_append]
    by_cases h : c = dot
    · subst h; rw [words_dot, words_dot, ih]; rfl
    · cases ha : words a with
      | nil => exact absurd ha (words_ne_nil a)
      | cons w ws =>
        rw [words_char h ha]
        rw [ha] at ih
        exact words_char h ih

/-- The byte string with these words. -/
def unwords : List (List UInt8) → List UInt8
  | [] => []
  | [w] => w
  | w :: ws => w ++ dot :: unwords ws

theorem unwords_cons {w : List UInt8} {ws : List (List UInt8)} (h : ws ≠ []) : unwords (w :: ws) = w ++ dot :: unwords ws := by
  cases ws with
  | nil => exact absurd rfl h
  | cons v vs => rfl

theorem unwords_words (p : List UInt8) : unwords (words p) = p := by
  induction p with
  | nil => rfl
  | cons c p ih =>
    by_cases h : c = dot
    · subst h; rw [words_dot, unwords_cons (words_ne_nil p), ih]; rfl
    · cases hp : words p with
      | nil => exact absurd hp (words_ne_nil p)
      | cons w ws =>
        rw [words_char h hp]
        rw [hp] at ih
        cases ws with
        | nil => exact congrArg (c :: ·) ih
        | cons v vs => exact congrArg (c :: ·) ih

theorem mem_words {p w : List UInt8} (h : w ∈ words p) {c : UInt8} (hc : c ∈ w) : c ∈ p := by
  induction p generalizing w with
  | nil => simp only [words, List.mem_singleton] at h; subst h; exact hc
  | cons d p ih =>
    by_cases e : d = dot
    · subst e
      rw [words_dot, List.mem_cons] at h
      rcases h with rfl | h
      · cases hc
      · exact List.mem_cons_of_mem _ (ih h hc)
    · cases hp : words p with
      | nil => exact absurd hp (words_ne_nil p)
      | cons v vs =>
        rw [words_char e hp, List.mem_cons] at h
        rw [hp] at ih
        rcases h with rfl | h
        · rcases List.mem_cons.1 hc with rfl | hc
          · exact List.mem_cons_self ..
          · exact List.mem_cons_of_mem _ (ih (List.mem_cons_self ..) hc)
        · exact List.mem_cons_of_mem _ (ih (List.mem_cons_of_mem _ h) hc)

theorem words_single {w : List UInt8} (h : dot ∉ w) : words w = [w] := by
  induction w with
  | nil => rfl
  | cons c w ih =>
    simp only [List.mem_cons, not_or] at h
    unfold words
    rw [if_neg (Ne.symm h.1), ih h.2]

/-- A byte string is a word, or a word, a dot and a byte string. -/
theorem split_dot (p : List UInt8) : dot ∉ p ∨ ∃ w r, dot ∉ w ∧ p = w ++ dot :: r := by
  induction p with
  | nil => simp
  | cons c p ih =>
    by_cases h : c = dot
    · exact .inr ⟨[], p, by simp, by simp [h]⟩
    · rcases ih with ih | ⟨w, r, h1, rfl⟩
      · exact .inl (by simp [Ne.symm h, ih])
      · exact .inr ⟨c :: w, r, by simp [Ne.symm h, h1], by simp⟩

theorem dot_bindingKey {w : List UInt8} (h : dot ∉ w) : dot ∉ bindingKey w := by
  intro hm
  obtain ⟨c, hc, he⟩ := List.mem_map.1 hm
  split at he
  · revert he; decide
  · exact h (he ▸ hc)

theorem bindingKey_append (a b : List UInt8) : bindingKey (a ++ dot :: b) = bindingKey a ++ dot :: bindingKey b := by
  unfold bindingKey
  rw [List.map_append, List.map_cons, if_neg (by decide)]

theorem bindingKey_plain {w : List UInt8} (h : star ∉ w) : bindingKey w = w := by
  unfold bindingKey
  induction w with
  | nil => rfl
  | cons c w ih =>
    simp only [List.mem_cons, not_or] at h
    rw [List.map_cons, if_neg (Ne.symm h.1), ih h.2]

theorem matches_word {w s : List UInt8} (h : star ∉ w) : Matches w s ↔ w = s :=
  Wildcard.matches_noWild (by
    unfold Wildcard.isWildPattern
    rw [List.any_eq_false]
    intro c hc
    simp only [decide_eq_true_eq]
    rintro rfl
    exact h hc)

theorem matches_split {w r t : List UInt8} (h : Matches (w ++ dot :: r) t) :
    ∃ a b, t = a ++ dot :: b ∧ Matches w a ∧ Matches r b := by
  obtain ⟨a, b, rfl, ha, hb⟩ := Wildcard.matches_append_inv h
  cases hb with
  | byte _ hb => exact ⟨a, _, rfl, ha, hb⟩

theorem wordwise_append {w r : List UInt8} (h : dot ∉ w) :
    Wordwise (w ++ dot :: r) ↔ (w = [star] ∨ (star ∉ w ∧ hash ∉ w)) ∧ Wordwise r := by
  unfold Wordwise
  rw [words_append, words_single h]
  simp

theorem plain_ne {w : List UInt8} (h : star ∉ w ∧ hash ∉ w) : w ≠ [star] ∧ w ≠ [hash] :=
  ⟨by rintro rfl; simp at h, by rintro rfl; simp at h⟩

theorem star_no_dot : dot ∉ [star] := by decide

/-- C66: whoever subscribes with a pattern whose wildcards are words of their own gets, through RabbitMQ, every event the in-memory
broker would deliver. -/
theorem C66_delivers {pattern topic : List UInt8} (hw : Wordwise pattern) (hm : Matches pattern topic) : Delivered pattern topic := by
  unfold Delivered
  generalize hn : pattern.length = n
  induction n using Nat.strongRecOn generalizing pattern topic with
  | ind n ih =>
    rcases split_dot pattern with hp | ⟨w, r, hd, rfl⟩
    · rw [words_single (dot_bindingKey hp)]
      have := hw pattern (by rw [words_single hp]; exact List.mem_singleton.2 rfl)
      rcases this with rfl | hpl
      · have := Routes.hash (words topic) .nil
        rw [List.append_nil] at this
        exact this
      · cases (matches_word hpl.1).1 hm
        rw [bindingKey_plain hpl.1, words_single hp]
        exact .word (plain_ne hpl).1 (plain_ne hpl).2 .nil
    · obtain ⟨a, b, rfl, ha, hb⟩ := matches_split hm
      obtain ⟨h1, h2⟩ := (wordwise_append hd).1 hw
      rw [bindingKey_append, words_append, words_append, words_single (dot_bindingKey hd)]
      have hr := ih r.length (by subst hn; simp; omega) h2 hb rfl
      rcases h1 with rfl | hpl
      · exact .hash (words a) hr
      · cases (matches_word hpl.1).1 ha
        rw [bindingKey_plain hpl.1, words_single hd]
        exact .word (plain_ne hpl).1 (plain_ne hpl).2 hr

/-- C66, patterns without wildcard: exactly the events of that topic. -/
theorem C66_plain {pattern topic : List UInt8} (h1 : star ∉ pattern) (h2 : hash ∉ pattern) : Delivered pattern topic ↔ topic = pattern := by
  constructor
  · unfold Delivered
    rw [bindingKey_plain h1]
    intro h
    have key : ∀ {k t : List (List UInt8)}, Routes k t → (∀ w ∈ k, star ∉ w ∧ hash ∉ w) → t = k := by
      intro k t h
      induction h with
      | nil => exact fun _ => rfl
      | word _ _ _ ih => exact fun hk => by rw [ih fun w hw => hk w (by simp [hw])]
      | star _ _ => exact fun hk => by have := (hk _ (List.mem_cons_self ..)).1; simp at this
      | hash _ _ _ => exact fun hk => by have := (hk _ (List.mem_cons_self ..)).2; simp at this
    have he := key h fun w hw => ⟨fun hc => h1 (mem_words hw hc), fun hc => h2 (mem_words hw hc)⟩
    rw [← unwords_words topic, he, unwords_words]
  · rintro rfl
    exact C66_delivers (fun w hw => .inr ⟨fun hc => h1 (mem_words hw hc), fun hc => h2 (mem_words hw hc)⟩) ((matches_word h1).2 rfl)

/-- `job` -/
def job : List UInt8 := [106, 111, 98]
/-- `job.*` -/
def jobPattern : List UInt8 := [106, 111, 98, 46, 42]

example : job = "job".toUTF8.toList ∧ jobPattern = "job.*".toUTF8.toList := by decide +kernel

theorem jobPattern_eq : jobPattern = job ++ dot :: [star] := by decide +kernel

/-- C66, the pattern `job.*` used by the API and the engine: every topic that begins with `job.`, and the topic `job`. -/
theorem C66_job {topic : List UInt8} : Delivered jobPattern topic ↔ topic = job ∨ ∃ r, topic = job ++ dot :: r := by
  have hk : words (bindingKey jobPattern) = [job, [hash]] := by decide +kernel
  have hj : words job = [job] := by decide +kernel
  unfold Delivered
  rw [hk]
  constructor
  · intro h
    generalize ht : words topic = t at h
    have hne := words_ne_nil topic
    cases h with
    | word _ _ h =>
      rename_i t _ _
      by_cases e : t = []
      · subst e; left; rw [← unwords_words topic, ht]; rfl
      · right
        refine ⟨unwords t, ?_⟩
        rw [← unwords_words topic, ht, unwords_cons e]
  · rintro (rfl | ⟨r, rfl⟩)
    · rw [hj]; exact .word (by decide) (by decide) (.hash [] .nil)
    · rw [words_append, hj]
      have := Routes.hash (words r) .nil
      rw [List.append_nil] at this
      exact .word (by decide) (by decide) this

/-- The in-memory broker delivers the same, except for the topic `job` itself. -/
theorem C66_job_inmemory {topic : List UInt8} : Matches jobPattern topic ↔ ∃ r, topic = job ++ dot :: r := by
  rw [jobPattern_eq]
  constructor
  · intro h
    obtain ⟨a, b, rfl, h1, _⟩ := matches_split h
    exact ⟨b, by rw [(matches_word (by decide +kernel)).1 h1]⟩
  · rintro ⟨r, rfl⟩
    exact Wildcard.matches_append ((matches_word (by decide +kernel)).2 rfl) (.byte (by decide) (Wildcard.matches_star1 r))

/-- C66, the exception: a `*` that is only a part of a word is no wildcard for RabbitMQ. -/
theorem C66_partial_word : ∃ pattern topic, Matches pattern topic ∧ ¬ Delivered pattern topic := by
  refine ⟨"jo*".toUTF8.toList, "job.completed".toUTF8.toList, ?_, ?_⟩
  · rw [← Wildcard.C24_wildcard_match_iff]; decide +kernel
  · unfold Delivered
    have h1 : words (bindingKey "jo*".toUTF8.toList) = ["jo#".toUTF8.toList] := by decide +kernel
    have h2 : words "job.completed".toUTF8.toList = [job, "completed".toUTF8.toList] := by decide +kernel
    rw [h1, h2]
    generalize hk : [("jo#".toUTF8.toList : List UInt8)] = k
    generalize ht : [job, "completed".toUTF8.toList] = t
    intro h
    cases h with
    | nil => cases hk
    | word a b c =>
      injection hk with hk hk'
      injection ht with ht ht'
      rw [← ht] at hk
      revert hk; decide +kernel
    | star c => injection hk with hk hk'; revert hk; decide +kernel
    | hash a c => injection hk with hk hk'; revert hk; decide +kernel

/-! ## Examples -/

example : Wordwise jobPattern ∧ Matches jobPattern "job.completed".toUTF8.toList ∧ Delivered jobPattern "job.completed".toUTF8.toList := by
  have h1 : Wordwise jobPattern := by
    intro w hw
    have : words jobPattern = [job, [star]] := by decide +kernel
    rw [this] at hw
    simp only [List.mem_cons, List.not_mem_nil, or_false] at hw
    rcases hw with rfl | rfl
    · exact .inr ⟨by decide +kernel, by decide +kernel⟩
    · exact .inl rfl
  have h2 : Matches jobPattern "job.completed".toUTF8.toList := by
    rw [← Wildcard.C24_wildcard_match_iff]; decide +kernel
  exact ⟨h1, h2, C66_delivers h1 h2⟩

end Tork.RabbitTopic
