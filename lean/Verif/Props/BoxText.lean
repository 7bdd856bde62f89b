import Verif.Spec.BoxText
import Verif.Props.IeeeLaws
import Verif.Lemmas.ApidbRow
import Verif.Model.PbfInfo
/-! # C107: bounding boxes as text -/
namespace OsmIo
open Text Sql Spec

theorem neg_opposite (d : Double) : d.neg = d.opposite := by cases d <;> rfl

theorem while_append {p : Char → Bool} {a b : Text} (ha : ∀ c ∈ a, p c = true) (hb : ∀ c, b.head? = some c → p c = false) :
    (a ++ b).takeWhile p = a ∧ (a ++ b).dropWhile p = b := by
  induction a with
  | nil =>
    cases b with
    | nil => exact ⟨rfl, rfl⟩
    | cons c b =>
      have := hb c rfl
      simp [this]
  | cons c a ih =>
    have h1 := ha c (by simp)
    obtain ⟨h2, h3⟩ := ih (fun c hc => ha c (by simp [hc]))
    simp [h1, h2, h3]

theorem while_stop {p : Char → Bool} (t : Text) (c : Char) (h : (t.dropWhile p).head? = some c) : p c = false := by
  have := List.head?_dropWhile_not p t
  rw [h] at this
  simpa using this

theorem digit_plain {d : Nat} (h : d < 10) : digit d ≠ 'e' ∧ digit d ≠ 'E' ∧ digit d ≠ '.' ∧ digit d ≠ '-' ∧ digit d ≠ '+' ∧ digit d ≠ ',' ∧
    (digit d).toNat ∉ Spec.whiteSpace ∧ digit d ≠ 'l' := by
  have key : ∀ d : Fin 10, digit d.1 ≠ 'e' ∧ digit d.1 ≠ 'E' ∧ digit d.1 ≠ '.' ∧ digit d.1 ≠ '-' ∧ digit d.1 ≠ '+' ∧ digit d.1 ≠ ',' ∧
    (digit d.1).toNat ∉ Spec.whiteSpace ∧ digit d.1 ≠ 'l' := by decide
  exact key ⟨d, h⟩

theorem parseDecimal_iff (t : Text) (v : ℚ) : parseDecimal t = some v ↔ UnsignedText t v := by
  constructor
  · intro h
    unfold parseDecimal at h
    simp only at h
    have e1 := List.takeWhile_append_dropWhile (p := fun c : Char => c != 'e' && c != 'E') (l := t)
    generalize hm : t.takeWhile (fun c => c != 'e' && c != 'E') = m at *
    have hx := while_stop (p := fun c : Char => c != 'e' && c != 'E') t
    generalize t.dropWhile (fun c => c != 'e' && c != 'E') = x at *
    have e2 := List.takeWhile_append_dropWhile (p := fun c : Char => c != '.') (l := m)
    generalize m.takeWhile (· != '.') = w at *
    have hp := while_stop (p := fun c : Char => c != '.') m
    generalize m.dropWhile (· != '.') = f at *
    split at h
    · cases h
    · rename_i hne
      split at h
      · rename_i n e hn he
        injection h with h
        obtain ⟨ds, h1, h2, h3⟩ := digits_iff.1 hn
        obtain ⟨ws, fs, rfl, rfl, hfs⟩ := List.append_eq_map_iff.1 h2
        refine ⟨ws, fs, f.take 1, x, e, ?_, ?_, h1, ?_, ?_, ?_⟩
        · rw [← e1, ← e2, hfs]
          simp only [List.append_assoc]
          rw [← List.append_assoc (List.take 1 f), List.take_append_drop]
        · rintro h0
          rw [h0] at h2
          exact hne h2
        · cases f with
          | nil => right; simpa using hfs
          | cons c f =>
            have := hp c rfl
            simp at this
            left; simp [this]
        · cases x with
          | nil => left; simp [exponent] at he; exact ⟨rfl, he.symm⟩
          | cons c x =>
            have := hx c rfl
            right
            refine ⟨c, x, ?_, rfl, parseInt_iff.1 he⟩
            by_cases hc : c = 'e'
            · exact .inl hc
            · right; simpa [hc] using this
        · rw [← h, h3, ← hfs, List.length_map]
      · cases h
  · rintro ⟨ws, fs, point, ex, e, rfl, h1, h2, h3, h4, rfl⟩
    have a1 : ∀ c ∈ ws.map digit ++ point ++ fs.map digit, (c != 'e' && c != 'E') = true := by
      intro c hc
      rcases List.mem_append.1 hc with hc | hc
      · rcases List.mem_append.1 hc with hc | hc
        · obtain ⟨d, hd, rfl⟩ := List.mem_map.1 hc
          have := digit_plain (h2 d (by simp [hd]))
          simp [this.1, this.2.1]
        · rcases h3 with rfl | ⟨rfl, -⟩
          · simp at hc; subst hc; decide
          · simp at hc
      · obtain ⟨d, hd, rfl⟩ := List.mem_map.1 hc
        have := digit_plain (h2 d (by simp [hd]))
        simp [this.1, this.2.1]
    have a2 : ∀ c, ex.head? = some c → (c != 'e' && c != 'E') = false := by
      intro c hc
      rcases h4 with ⟨rfl, -⟩ | ⟨c', x, hc', rfl, -⟩
      · simp at hc
      · simp at hc; subst hc; rcases hc' with rfl | rfl <;> decide
    obtain ⟨b1, b2⟩ := while_append a1 a2
    have a3 : ∀ c ∈ ws.map digit, (c != '.') = true := by
      intro c hc
      obtain ⟨d, hd, rfl⟩ := List.mem_map.1 hc
      have := digit_plain (h2 d (by simp [hd]))
      simp [this.2.2.1]
    have a4 : ∀ c, (point ++ fs.map digit).head? = some c → (c != '.') = false := by
      intro c hc
      rcases h3 with rfl | ⟨rfl, rfl⟩
      · simp at hc; subst hc; decide
      · simp at hc
    obtain ⟨b3, b4⟩ := while_append a3 a4
    have b5 : (point ++ fs.map digit).drop 1 = fs.map digit := by
      rcases h3 with rfl | ⟨rfl, rfl⟩ <;> simp
    have b6 : exponent ex = some e := by
      rcases h4 with ⟨rfl, rfl⟩ | ⟨c', x, -, rfl, h⟩
      · rfl
      · exact parseInt_iff.2 h
    have b7 : digits 0 (ws.map digit ++ fs.map digit) = some (decimal (ws ++ fs)) :=
      digits_iff.2 ⟨ws ++ fs, h2, by simp, rfl⟩
    unfold parseDecimal
    simp only
    rw [b1, b2]
    rw [List.append_assoc (ws.map digit)] 
    rw [b3, b4, b5, b6, b7, if_neg (by simpa using h1)]
    simp

theorem parseMagnitude_iff (t : Text) (d : Double) : parseMagnitude t = some d ↔ MagnitudeText t d := by
  have num : ∀ v, UnsignedText t v → t.map Char.toLower ≠ ['n', 'a', 'n'] ∧ t.map Char.toLower ≠ ['i', 'n', 'f'] ∧
      t.map Char.toLower ≠ ['i', 'n', 'f', 'i', 'n', 'i', 't', 'y'] := by
    rintro v ⟨ws, fs, point, ex, e, rfl, h1, h2, h3, -, -⟩
    have hd : ∀ d < 10, (digit d).toLower ≠ 'n' ∧ (digit d).toLower ≠ 'i' := by
      have key : ∀ d : Fin 10, (digit d.1).toLower ≠ 'n' ∧ (digit d.1).toLower ≠ 'i' := by decide
      exact fun d h => key ⟨d, h⟩
    rcases ws with _ | ⟨w, ws⟩
    · rcases h3 with rfl | ⟨-, rfl⟩
      · refine ⟨?_, ?_, ?_⟩ <;> · intro h; injection h with h; revert h; decide
      · exact absurd rfl h1
    · have := hd w (h2 w (by simp))
      refine ⟨?_, ?_, ?_⟩ <;> · intro h; injection h with h; simp_all
  unfold parseMagnitude MagnitudeText IsWord
  simp only
  have w1 : "nan".toList = ['n', 'a', 'n'] := rfl
  have w2 : "inf".toList = ['i', 'n', 'f'] := rfl
  have w3 : "infinity".toList = ['i', 'n', 'f', 'i', 'n', 'i', 't', 'y'] := rfl
  rw [w1, w2, w3]
  split
  · rename_i h
    constructor
    · rintro ⟨⟩; exact .inr (.inl ⟨h, rfl⟩)
    · rintro (⟨v, hv, -⟩ | ⟨-, rfl⟩ | ⟨h' | h', rfl⟩)
      · exact absurd h (num v hv).1
      · rfl
      · rw [h] at h'; cases h'
      · rw [h] at h'; cases h'
  · rename_i h
    split
    · rename_i hi
      constructor
      · rintro ⟨⟩; exact .inr (.inr ⟨hi, rfl⟩)
      · rintro (⟨v, hv, -⟩ | ⟨h', rfl⟩ | ⟨-, rfl⟩)
        · rcases hi with hi | hi
          · exact absurd hi (num v hv).2.1
          · exact absurd hi (num v hv).2.2
        · exact absurd h' h
        · rfl
    · rename_i hi
      constructor
      · intro hd
        cases hp : parseDecimal t with
        | none => simp [hp] at hd
        | some v =>
          simp [hp] at hd
          exact .inl ⟨v, (parseDecimal_iff t v).1 hp, hd.symm⟩
      · rintro (⟨v, hv, rfl⟩ | ⟨h', rfl⟩ | ⟨h', rfl⟩)
        · rw [(parseDecimal_iff t v).2 hv]; rfl
        · exact absurd h' h
        · exact absurd h' hi

/-- The characters of a number or a word: none is white space, a comma or a sign in front. -/
theorem magnitude_chars {t : Text} {d : Double} (h : MagnitudeText t d) : t ≠ [] ∧ t.head? ≠ some '-' ∧ t.head? ≠ some '+' ∧ t.head? ≠ some 'l' ∧
    ∀ c ∈ t, c ≠ ',' ∧ c.toNat ∉ Spec.whiteSpace := by
  have good : ∀ c : Char, (∃ d < 10, c = digit d) ∨ c = '.' ∨ c = 'e' ∨ c = 'E' ∨ c = '+' ∨ c = '-' → c ≠ ',' ∧ c.toNat ∉ Spec.whiteSpace := by
    rintro c (⟨d, hd, rfl⟩ | rfl | rfl | rfl | rfl | rfl)
    · have := digit_plain hd
      exact ⟨this.2.2.2.2.2.1, this.2.2.2.2.2.2.1⟩
    all_goals exact ⟨by decide, by decide⟩
  have words : ∀ w : Text, (∀ x ∈ w, x ∈ ['n', 'a', 'i', 'f', 't', 'y']) → w ≠ [] → t.map Char.toLower = w → t ≠ [] ∧ t.head? ≠ some '-' ∧ t.head? ≠ some '+' ∧
      t.head? ≠ some 'l' ∧ ∀ c ∈ t, c ≠ ',' ∧ c.toNat ∉ Spec.whiteSpace := by
    intro w hw hne ht
    have key : ∀ c ∈ t, c.toLower ∈ ['n', 'a', 'i', 'f', 't', 'y'] := fun c hc => hw _ (ht ▸ List.mem_map_of_mem hc)
    have key2 : ∀ c ∈ t, c ∈ ['n', 'a', 'i', 'f', 't', 'y'] ∨ (65 ≤ c.toNat ∧ c.toNat ≤ 90) := by
      intro c hc
      have := key c hc
      unfold Char.toLower at this
      split at this
      · rename_i h
        right
        exact ⟨by have := h.1; exact this, by have := h.2; exact this⟩
      · exact .inl this
    have head : ∀ c, t.head? = some c → c ∈ t := fun c h => List.mem_of_mem_head? h
    have no : ∀ x : Char, x ∉ ['n', 'a', 'i', 'f', 't', 'y'] → ¬ (65 ≤ x.toNat ∧ x.toNat ≤ 90) → x ∉ t := fun x h1 h2 hx => (key2 x hx).elim h1 h2
    refine ⟨?_, fun h => no '-' (by decide) (by decide) (head _ h), fun h => no '+' (by decide) (by decide) (head _ h),
      fun h => no 'l' (by decide) (by decide) (head _ h), fun c hc => ⟨?_, ?_⟩⟩
    · rintro rfl; exact hne ht.symm
    · rintro rfl; exact no ',' (by decide) (by decide) hc
    · rcases key2 c hc with h | ⟨h1, h2⟩
      · simp only [List.mem_cons, List.not_mem_nil, or_false] at h
        rcases h with rfl | rfl | rfl | rfl | rfl | rfl <;> decide
      · unfold Spec.whiteSpace
        simp only [List.mem_cons, List.not_mem_nil, or_false]
        omega
  rcases h with ⟨v, ⟨ws, fs, point, ex, e, rfl, h1, h2, h3, h4, -⟩, -⟩ | ⟨h, -⟩ | ⟨h | h, -⟩
  · have first : ∀ x : Char, x = '-' ∨ x = '+' ∨ x = 'l' → (ws.map digit ++ point ++ fs.map digit ++ ex).head? ≠ some x := by
      intro x hx h
      rcases ws with _ | ⟨w, ws⟩
      · rcases h3 with rfl | ⟨-, rfl⟩
        · simp at h; subst h; revert hx; decide
        · exact h1 rfl
      · simp at h
        have := digit_plain (h2 w (by simp))
        rw [h] at this
        rcases hx with rfl | rfl | rfl
        · exact this.2.2.2.1 rfl
        · exact this.2.2.2.2.1 rfl
        · exact this.2.2.2.2.2.2.2 rfl
    refine ⟨?_, first _ (by simp), first _ (by simp), first _ (by simp), fun c hc => good c ?_⟩
    · intro h
      simp only [List.append_eq_nil_iff, List.map_eq_nil_iff] at h
      exact h1 (by rw [h.1.1.1, h.1.2]; rfl)
    · simp only [List.mem_append, List.mem_map] at hc
      rcases hc with ((⟨d, hd, rfl⟩ | hc) | ⟨d, hd, rfl⟩) | hc
      · exact .inl ⟨d, h2 d (by simp [hd]), rfl⟩
      · rcases h3 with rfl | ⟨rfl, -⟩
        · simp at hc; exact .inr (.inl hc)
        · simp at hc
      · exact .inl ⟨d, h2 d (by simp [hd]), rfl⟩
      · rcases h4 with ⟨rfl, -⟩ | ⟨c', x, hc', rfl, ds, -, hds, hx⟩
        · simp at hc
        · rcases List.mem_cons.1 hc with rfl | hc
          · rcases hc' with rfl | rfl <;> simp
          · have : c = '+' ∨ c = '-' ∨ c ∈ ds.map digit := by
              rcases hx with ⟨rfl, -⟩ | ⟨rfl, -⟩ | ⟨rfl, -⟩
              · exact .inr (.inr hc)
              · rcases List.mem_cons.1 hc with h | h
                · exact .inl h
                · exact .inr (.inr h)
              · rcases List.mem_cons.1 hc with h | h
                · exact .inr (.inl h)
                · exact .inr (.inr h)
            rcases this with rfl | rfl | h
            · simp
            · simp
            · obtain ⟨d, hd, rfl⟩ := List.mem_map.1 h
              exact .inl ⟨d, hds d hd, rfl⟩
  · exact words _ (by decide) (by decide) h
  · exact words _ (by decide) (by decide) h
  · exact words _ (by decide) (by decide) h

/-- C107. What `f64::from_str` makes of a text: a sign or none, then a decimal number or one of the words. -/
theorem C107_numbers (t : Text) (d : Double) :
    parseDouble t = some d ↔ ∃ s u a, t = s ++ u ∧ (s = [] ∨ s = ['+'] ∨ s = ['-']) ∧ MagnitudeText u a ∧ d = if s = ['-'] then a.opposite else a := by
  have bare : ∀ u a, MagnitudeText u a → ∀ d, parseDouble u = some d ↔ parseMagnitude u = some d := by
    intro u a h d
    obtain ⟨h1, h2, h3, -⟩ := magnitude_chars h
    unfold parseDouble
    split
    · exact absurd rfl h2
    · exact absurd rfl h3
    · rfl
  constructor
  · intro h
    unfold parseDouble at h
    split at h
    · rename_i cs
      cases hp : parseMagnitude cs with
      | none => simp [hp] at h
      | some a =>
        simp [hp] at h
        exact ⟨['-'], cs, a, rfl, by simp, (parseMagnitude_iff _ _).1 hp, by simp [← h, neg_opposite]⟩
    · exact ⟨['+'], _, d, rfl, by simp, (parseMagnitude_iff _ _).1 h, by simp⟩
    · exact ⟨[], _, d, rfl, by simp, (parseMagnitude_iff _ _).1 h, by simp⟩
  · rintro ⟨s, u, a, rfl, rfl | rfl | rfl, h, hd⟩
    · rw [List.nil_append, bare u a h, (parseMagnitude_iff _ _).2 h, hd]; simp
    · simp [parseDouble, (parseMagnitude_iff _ _).2 h, hd]
    · simp [parseDouble, (parseMagnitude_iff _ _).2 h, neg_opposite, hd]

/-- C107. A box is shown as `pbf-info` (C76) shows it. -/
theorem C107_shown (shown : Double → Text) (b : BoxD) (f : BoundingBox) (hf : Box.IsFinite b f) :
    b.display shown = f.display (fun q => shown (.fin q)) := by
  obtain ⟨h1, h2, h3, h4⟩ := hf
  unfold BoxD.display BoundingBox.display
  rw [h1, h2, h3, h4]

example : BoxD.display (fun | .fin q => showInt q.num | _ => []) ⟨.fin (-7), .fin 50, .fin 8, .fin 51⟩ = "left: -7, bottom: 50, right: 8, top: 51".toList := by
  decide +kernel

/-- A text beginning with `l` is not a number. -/
theorem no_number (t : Text) : parseDouble ('l' :: t) = none := by
  cases h : parseDouble ('l' :: t) with
  | none => rfl
  | some d =>
    obtain ⟨s, u, a, ht, hs, hm, -⟩ := (C107_numbers _ _).1 h
    rcases hs with rfl | rfl | rfl
    · have := (magnitude_chars hm).2.2.2.1
      rw [List.nil_append] at ht
      rw [← ht] at this
      exact absurd rfl this
    · injection ht with h1; exact absurd h1 (by decide)
    · injection ht with h1; exact absurd h1 (by decide)

/-- C107. What a box is shown as is never accepted as a box, whatever the numbers are shown as. -/
theorem C107_shown_refused (shown : Double → Text) (b : BoxD) : BoxD.fromStr parseDouble (b.display shown) = .err := by
  have hd : ∃ t, b.display shown = 'l' :: t := ⟨_, by unfold BoxD.display; rfl⟩
  obtain ⟨t, ht⟩ := hd
  rw [ht]
  unfold BoxD.fromStr
  obtain ⟨p, ps, hs⟩ : ∃ p ps, split ',' ('l' :: t) = ('l' :: p) :: ps := by
    simp only [split]
    rw [if_neg (by decide)]
    split
    · exact ⟨_, _, rfl⟩
    · exact ⟨_, _, rfl⟩
  rw [hs, List.map_cons]
  have htr : ∃ q, BoundingBox.trim ('l' :: p) = 'l' :: q := by
    obtain ⟨a, c, h1, h2, h3, -⟩ := (trim_iff ('l' :: p) _).2 rfl
    have hl : ('l').toNat ∉ Spec.whiteSpace := by decide
    rcases a with _ | ⟨x, a⟩
    · generalize BoundingBox.trim ('l' :: p) = q at *
      rcases q with _ | ⟨y, q⟩
      · rw [List.nil_append, List.nil_append] at h1
        exact absurd (h2 'l' (by rw [List.nil_append, ← h1]; simp)) hl
      · injection h1 with h1
        exact ⟨q, by rw [h1]⟩
    · injection h1 with h1
      exact absurd (h2 'l' (by rw [h1]; simp)) hl
  obtain ⟨q, hq⟩ := htr
  rw [hq]
  unfold BoxD.fromParts
  split
  · rename_i h
    injection h with h
    subst h
    rw [no_number]
    rfl
  · rfl

theorem double_chars {t : Text} {d : Double} (h : parseDouble t = some d) : t ≠ [] ∧ ∀ c ∈ t, c ≠ ',' ∧ c.toNat ∉ Spec.whiteSpace := by
  obtain ⟨s, u, a, rfl, hs, hm, -⟩ := (C107_numbers _ _).1 h
  obtain ⟨h1, -, -, -, h2⟩ := magnitude_chars hm
  refine ⟨by simp [h1], fun c hc => ?_⟩
  rcases List.mem_append.1 hc with hc | hc
  · rcases hs with rfl | rfl | rfl
    · simp at hc
    · simp at hc; subst hc; exact ⟨by decide, by decide⟩
    · simp at hc; subst hc; exact ⟨by decide, by decide⟩
  · exact h2 c hc

open Classical in
/-- C107. Four numbers with commas between them and white space around them are the box with these sides, if they are in its range, and an error if they are not;
what follows a fourth comma is ignored. -/
theorem C107_reads (t0 t1 t2 t3 : Text) (x0 x1 x2 x3 : Double) (h0 : parseDouble t0 = some x0) (h1 : parseDouble t1 = some x1)
    (h2 : parseDouble t2 = some x2) (h3 : parseDouble t3 = some x3) (p0 p1 p2 p3 : Text) (w0 : Spec.Trimmed p0 t0) (w1 : Spec.Trimmed p1 t1)
    (w2 : Spec.Trimmed p2 t2) (w3 : Spec.Trimmed p3 t3) (more : List Text) (hm : ∀ p ∈ more, ',' ∉ p) :
    BoxD.fromStr parseDouble (List.intercalate [','] (p0 :: p1 :: p2 :: p3 :: more)) =
      if (∃ q : ℚ, x0 = .fin q ∧ |q| ≤ 180) ∧ (∃ q : ℚ, x1 = .fin q ∧ |q| ≤ 90) ∧ (∃ q : ℚ, x2 = .fin q ∧ |q| ≤ 180) ∧ ∃ q : ℚ, x3 = .fin q ∧ |q| ≤ 90
      then .ok ⟨x0, x1, x2, x3⟩ else .err := by
  have nocomma : ∀ {p t : Text} {x : Double}, Spec.Trimmed p t → parseDouble t = some x → ',' ∉ p := by
    rintro p t x ⟨a, b, rfl, hw, -, -⟩ hx hc
    rcases List.mem_append.1 hc with hc | hc
    · rcases List.mem_append.1 hc with hc | hc
      · exact absurd (hw _ (List.mem_append_left _ hc)) (by decide)
      · exact ((double_chars hx).2 _ hc).1 rfl
    · exact absurd (hw _ (List.mem_append_right _ hc)) (by decide)
  have hsplit : split ',' (List.intercalate [','] (p0 :: p1 :: p2 :: p3 :: more)) = p0 :: p1 :: p2 :: p3 :: more := by
    rw [← commaPieces_iff]
    refine ⟨rfl, by simp, ?_⟩
    intro p hp
    simp only [List.mem_cons] at hp
    rcases hp with rfl | rfl | rfl | rfl | hp
    · exact nocomma w0 h0
    · exact nocomma w1 h1
    · exact nocomma w2 h2
    · exact nocomma w3 h3
    · exact hm p hp
  have hin : ∀ (bound : ℚ) (x : Double), BoxD.within bound x = true ↔ ∃ q : ℚ, x = .fin q ∧ |q| ≤ bound := by
    intro bound x
    rcases x with _ | s | q
    · simp [BoxD.within, Double.le]
    · cases s <;> simp [BoxD.within, Double.le]
    · simp [BoxD.within, Double.le, abs_le]
  unfold BoxD.fromStr
  rw [hsplit]
  simp only [List.map_cons, BoxD.fromParts, (trim_iff _ _).1 w0, (trim_iff _ _).1 w1, (trim_iff _ _).1 w2, (trim_iff _ _).1 w3, h0, h1, h2, h3, Out.orErr,
    Out.ok_bind, ← hin]
  by_cases a : BoxD.within 180 x0 = true <;> by_cases b : BoxD.within 90 x1 = true <;> by_cases c : BoxD.within 180 x2 = true <;>
    by_cases d : BoxD.within 90 x3 = true <;> simp [a, b, c, d]

/-- C107. Where numbers are shown so that they read back as themselves, as Rust shows them, a box is read back from its sides with commas between them. -/
theorem C107_round_trip (shown : Double → Text) (hs : FaithfulNumbers shown) (b : BoxD) (hb : ProperBox b) (f : BoundingBox) (hf : Box.IsFinite b f)
    (h0 : |f.left| ≤ 180) (h1 : |f.bottom| ≤ 90) (h2 : |f.right| ≤ 180) (h3 : |f.top| ≤ 90) :
    BoxD.fromStr parseDouble (shown b.left ++ [','] ++ shown b.bottom ++ [','] ++ shown b.right ++ [','] ++ shown b.top) = .ok b := by
  have tr : ∀ x, DoubleValue x → Spec.Trimmed (shown x) (shown x) := fun x hx =>
    ⟨[], [], by simp, by simp, fun c hc => ((double_chars (hs x hx)).2 c (List.mem_of_mem_head? hc)).2,
      fun c hc => ((double_chars (hs x hx)).2 c (List.mem_of_getLast? hc)).2⟩
  obtain ⟨p0, p1, p2, p3⟩ := hb
  have := C107_reads _ _ _ _ _ _ _ _ (hs b.left p0) (hs b.bottom p1) (hs b.right p2) (hs b.top p3) _ _ _ _ (tr _ p0) (tr _ p1) (tr _ p2) (tr _ p3) [] (by simp)
  obtain ⟨k0, k1, k2, k3⟩ := hf
  rw [if_pos ⟨⟨_, k0, h0⟩, ⟨_, k1, h1⟩, ⟨_, k2, h2⟩, ⟨_, k3, h3⟩⟩] at this
  rw [← this]
  congr 1
  simp [List.intercalate, List.intersperse]

theorem upto_comma {a a' r r' : Text} (ha : ',' ∉ a) (ha' : ',' ∉ a') (h : a ++ ',' :: r = a' ++ ',' :: r') : a = a' ∧ r = r' := by
  induction a generalizing a' with
  | nil =>
    cases a' with
    | nil => injection h with _ h; exact ⟨rfl, h⟩
    | cons c a' => injection h with h; subst h; exact absurd (by simp) ha'
  | cons c a ih =>
    cases a' with
    | nil => injection h with h; subst h; exact absurd (by simp) ha
    | cons c' a' =>
      injection h with h1 h2
      obtain ⟨e1, e2⟩ := ih (fun h => ha (by simp [h])) (fun h => ha' (by simp [h])) h2
      exact ⟨by rw [h1, e1], e2⟩

/-- C107. Two boxes that are shown alike are the same. -/
theorem C107_shown_apart (shown : Double → Text) (hs : FaithfulNumbers shown) (b b' : BoxD) (hb : ProperBox b) (hb' : ProperBox b') (h : b.display shown = b'.display shown) : b = b' := by
  have inj : ∀ {x y}, DoubleValue x → DoubleValue y → shown x = shown y → x = y := by
    intro x y hx hy h
    have := hs x hx
    rw [h, hs y hy] at this
    injection this with this
    exact this.symm
  have nc : ∀ {x}, DoubleValue x → ',' ∉ shown x := fun hp hx => ((double_chars (hs _ hp)).2 _ hx).1 rfl
  obtain ⟨p0, p1, p2, p3⟩ := hb
  obtain ⟨q0, q1, q2, q3⟩ := hb'
  have e1 : "left: ".toList = ['l', 'e', 'f', 't', ':', ' '] := rfl
  have e2 : ", bottom: ".toList = [',', ' ', 'b', 'o', 't', 't', 'o', 'm', ':', ' '] := rfl
  have e3 : ", right: ".toList = [',', ' ', 'r', 'i', 'g', 'h', 't', ':', ' '] := rfl
  have e4 : ", top: ".toList = [',', ' ', 't', 'o', 'p', ':', ' '] := rfl
  unfold BoxD.display at h
  rw [e1, e2, e3, e4] at h
  simp only [List.append_assoc, List.cons_append, List.nil_append, List.cons.injEq, true_and] at h
  obtain ⟨k1, h⟩ := upto_comma (nc p0) (nc q0) h
  simp only [List.cons.injEq, true_and] at h
  obtain ⟨k2, h⟩ := upto_comma (nc p1) (nc q1) h
  simp only [List.cons.injEq, true_and] at h
  obtain ⟨k3, h⟩ := upto_comma (nc p2) (nc q2) h
  simp only [List.cons.injEq, true_and] at h
  cases b; cases b'
  simp only [BoxD.mk.injEq]
  exact ⟨inj p0 q0 k1, inj p1 q1 k2, inj p2 q2 k3, inj p3 q3 h⟩

/-- The box of the program's error message, a point in front, exponents, words and wrong numbers. -/
example : BoxD.fromStr parseDouble "-180.0, -90.0 ,180.0,90.0".toList = .ok ⟨.fin (-180), .fin (-90), .fin 180, .fin 90⟩ ∧
    parseDouble "+.5e1".toList = some (.fin 5) ∧ parseDouble "25E-1".toList = some (.fin (5 / 2)) ∧ parseDouble "-Infinity".toList = some (.inf true) ∧
    parseDouble "1.".toList = some (.fin 1) ∧ parseDouble ".".toList = none ∧ parseDouble "1e".toList = none ∧ parseDouble "1.2.3".toList = none ∧
    parseDouble "".toList = none ∧ parseDouble "1e400".toList = some (.inf false) := by
  decide +kernel

theorem binary64_neg {q : ℚ} (h : IsBinary64 q) : IsBinary64 (-q) := by
  obtain ⟨m, e, h1, h2, h3, rfl⟩ := h
  exact ⟨-m, e, by rwa [abs_neg], h2, h3, by push_cast; ring⟩

/-- C107. Only doubles are read. -/
theorem C107_proper (t : Text) (d : Double) (h : parseDouble t = some d) : DoubleValue d := by
  obtain ⟨s, u, a, -, -, hm, rfl⟩ := (C107_numbers _ _).1 h
  have ha : DoubleValue a := by
    rcases hm with ⟨v, -, rfl⟩ | ⟨-, rfl⟩ | ⟨-, rfl⟩
    · cases ho : Double.ofRat v with
      | fin q => exact (ofRat_nearest ho).1
      | nan => trivial
      | inf _ => trivial
    · trivial
    · trivial
  split
  · cases a with
    | fin q => exact binary64_neg ha
    | nan => trivial
    | inf _ => trivial
  · exact ha

theorem ofRat_exact {q : ℚ} (h : IsBinary64 q) : Double.ofRat q = .fin q := by
  cases ho : Double.ofRat q with
  | fin r =>
    have := (ofRat_nearest ho).2 q h
    rw [sub_self, abs_zero] at this
    rw [sub_eq_zero.1 (abs_nonpos_iff.1 this)]
  | nan =>
    exfalso
    unfold Double.ofRat at ho
    split at ho
    · cases ho
    · simp only at ho
      split at ho <;> cases ho
  | inf s =>
    exfalso
    have h2 := ((ofRat_overflow q s).1 ho).1
    obtain ⟨m, e, h3, -, h4, rfl⟩ := h
    have h5 : |(m : ℚ)| ≤ 2 ^ 53 - 1 := by
      have : |m| ≤ 2 ^ 53 - 1 := by omega
      exact_mod_cast this
    have h6 : (2 : ℚ) ^ e ≤ 2 ^ (971 : ℤ) := zpow_le_zpow_right₀ (by norm_num) h4
    have h7 : |(m : ℚ) * 2 ^ e| ≤ (2 ^ 53 - 1) * 2 ^ (971 : ℤ) := by
      rw [abs_mul, abs_of_pos (two_zpow_pos e)]
      exact mul_le_mul h5 h6 (two_zpow_pos e).le (by norm_num)
    have h8 : (2 : ℚ) ^ (971 : ℤ) = 2 * 2 ^ (970 : ℕ) := by rw [← pow_succ', ← zpow_natCast]; rfl
    have h9 : (2 : ℚ) ^ (1024 : ℕ) = 2 ^ 54 * 2 ^ (970 : ℕ) := by rw [← pow_add]
    have hA : (0 : ℚ) < 2 ^ (970 : ℕ) := pow_pos (by norm_num) _
    rw [h8] at h7
    rw [h9] at h2
    generalize (2 : ℚ) ^ (970 : ℕ) = A at *
    have := h2.trans h7
    have e : ((2 : ℚ) ^ 53 - 1) * (2 * A) = 2 ^ 54 * A - 2 * A := by ring
    rw [e] at this
    clear h2 h7 h8 h9 e h6 h5 ho
    generalize (2 : ℚ) ^ 54 * A = B at this
    linarith

theorem showNat_digits (n : Nat) : ∃ ds : List Nat, ds ≠ [] ∧ (∀ d ∈ ds, d < 10) ∧ showNat n = ds.map digit ∧ decimal ds = n := by
  obtain ⟨ds, h1, h2, h3⟩ := digits_iff.1 (digits_showNat n)
  refine ⟨ds, ?_, h1, h2, h3.symm⟩
  rintro rfl
  exact showNat_ne_nil n h2

/-- C107. There is a way of showing numbers from which they can be read again. -/
theorem C107_faithful : ∃ shown, FaithfulNumbers shown := by
  have key : ∀ q : ℚ, IsBinary64 q → ∃ t, parseDouble t = some (.fin q) := by
    intro q hq
    obtain ⟨N, k, hN⟩ : ∃ N k : ℕ, |q| = N * 10 ^ (-(k : ℤ)) := by
      obtain ⟨m, e, -, -, -, rfl⟩ := hq
      rw [abs_mul, abs_of_pos (two_zpow_pos e)]
      have hm : |(m : ℚ)| = (m.natAbs : ℚ) := by rw [Nat.cast_natAbs, Int.cast_abs]
      rcases Int.le_total 0 e with he | he
      · obtain ⟨n, rfl⟩ := Int.eq_ofNat_of_zero_le he
        exact ⟨m.natAbs * 2 ^ n, 0, by rw [hm]; push_cast; simp⟩
      · obtain ⟨n, hn⟩ := Int.eq_ofNat_of_zero_le (show 0 ≤ -e by omega)
        refine ⟨m.natAbs * 5 ^ n, n, ?_⟩
        rw [hm, show e = -(n : ℤ) by omega]
        push_cast
        rw [zpow_neg, zpow_neg, zpow_natCast, zpow_natCast, show (10 : ℚ) = 5 * 2 by norm_num, mul_pow]
        have : (5 : ℚ) ^ n ≠ 0 := pow_ne_zero _ (by norm_num)
        field_simp
    obtain ⟨ds, h1, h2, h3, h4⟩ := showNat_digits N
    obtain ⟨es, g1, g2, g3, g4⟩ := showNat_digits k
    have hu : UnsignedText (showNat N ++ 'e' :: '-' :: showNat k) |q| := by
      refine ⟨ds, [], [], 'e' :: '-' :: showNat k, -(k : ℤ), by simp [h3], by simpa using h1, by simpa using h2, .inr ⟨rfl, rfl⟩,
        .inr ⟨'e', _, .inl rfl, rfl, es, g1, g2, .inr (.inr ⟨by rw [g3], by rw [g4]⟩)⟩, ?_⟩
      rw [hN]
      simp [h4]
    have hb : IsBinary64 |q| := by
      rcases abs_choice q with h | h
      · rwa [h]
      · rw [h]; exact binary64_neg hq
    have hm : MagnitudeText (showNat N ++ 'e' :: '-' :: showNat k) (.fin |q|) := .inl ⟨_, hu, (ofRat_exact hb).symm⟩
    rcases abs_choice q with h | h
    · rw [h] at hm
      exact ⟨_, (C107_numbers _ _).2 ⟨[], _, _, rfl, .inl rfl, hm, by simp⟩⟩
    · exact ⟨_, (C107_numbers _ _).2 ⟨['-'], _, _, rfl, .inr (.inr rfl), hm, by simp [Double.opposite, h]⟩⟩
  have : ∀ x, ∃ t, DoubleValue x → parseDouble t = some x := by
    intro x
    rcases x with _ | s | q
    · exact ⟨"NaN".toList, fun _ => by decide⟩
    · cases s
      · exact ⟨"inf".toList, fun _ => by decide⟩
      · exact ⟨"-inf".toList, fun _ => by decide⟩
    · by_cases h : IsBinary64 q
      · obtain ⟨t, ht⟩ := key q h
        exact ⟨t, fun _ => ht⟩
      · exact ⟨[], fun h' => absurd h' h⟩
  choose f hf using this
  exact ⟨f, hf⟩

/-- `C107_round_trip` on a box, shown in some faithful way. -/
example : ∃ shown, FaithfulNumbers shown ∧ BoxD.fromStr parseDouble (shown (.fin (-7)) ++ [','] ++ shown (.fin 50) ++ [','] ++ shown (.fin (17 / 2)) ++ [','] ++ shown (.fin 51)) =
    .ok ⟨.fin (-7), .fin 50, .fin (17 / 2), .fin 51⟩ := by
  obtain ⟨shown, hs⟩ := C107_faithful
  exact ⟨shown, hs, C107_round_trip shown hs ⟨.fin (-7), .fin 50, .fin (17 / 2), .fin 51⟩
    ⟨⟨-7, 0, by norm_num, by norm_num, by norm_num, by norm_num⟩, ⟨50, 0, by norm_num, by norm_num, by norm_num, by norm_num⟩,
      ⟨17, -1, by norm_num, by norm_num, by norm_num, by norm_num⟩, ⟨51, 0, by norm_num, by norm_num, by norm_num, by norm_num⟩⟩
    ⟨-7, 50, 17 / 2, 51⟩ ⟨rfl, rfl, rfl, rfl⟩ (by norm_num) (by norm_num) (by norm_num [abs_le]) (by norm_num)⟩

end OsmIo
