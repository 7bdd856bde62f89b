import Verif.Lemmas.Sql
import Verif.Lemmas.Tile
import Verif.Model.BoundingBox
/-!
# SQL values, tiles and bounding box text (C40, C47, C48)
-/
namespace OsmIo
open Sql Text

/-! ### C40 -/

/-- C40, the grid: the cell of a coordinate is one of 65536 in each direction, it is the grid line
nearest to the scaled coordinate (up to the rounding error of doubles, below `2^-30` of a cell), it
grows with the coordinate, and the corners of the world are the corner cells. -/
theorem C40_grid (lat lon : F64) (h1 : -90 ≤ lat) (h2 : lat ≤ 90) (h3 : -180 ≤ lon) (h4 : lon ≤ 180) :
    tileX lon ≤ 65535 ∧ tileY lat ≤ 65535 ∧
    |(tileX lon : ℚ) - (lon + 180) * 65535 / 360| ≤ 1 / 2 + 1 / 2 ^ 30 ∧
    |(tileY lat : ℚ) - (lat + 90) * 65535 / 180| ≤ 1 / 2 + 1 / 2 ^ 30 := by
  have := tileX_mono h4; rw [tileX_ends.2] at this
  have := tileY_mono h2; rw [tileY_ends.2] at this
  exact ⟨by omega, by omega, tileX_near h3 h4, tileY_near h1 h2⟩

theorem C40_grid_mono (a b : F64) (h : a ≤ b) : tileX a ≤ tileX b ∧ tileY a ≤ tileY b :=
  ⟨tileX_mono h, tileY_mono h⟩

theorem C40_corners : tileX (-180) = 0 ∧ tileX 180 = 65535 ∧ tileY (-90) = 0 ∧ tileY 90 = 65535 :=
  ⟨tileX_ends.1, tileX_ends.2, tileY_ends.1, tileY_ends.2⟩

/-- C40, the bits: bit `2i` of the tile is bit `i` of the `y` cell and bit `2i+1` is bit `i` of the
`x` cell. -/
theorem C40_bits (lat lon : F64) (i : Nat) (hi : i < 16) :
    (calculateTile lat lon).testBit (2 * i) = (tileY lat).testBit i ∧
    (calculateTile lat lon).testBit (2 * i + 1) = (tileX lon).testBit i := by
  unfold calculateTile
  constructor
  · rw [interleave_testBit, if_pos (by omega), if_pos (by omega)]
    congr 1; omega
  · rw [interleave_testBit, if_pos (by omega), if_neg (by omega)]
    congr 1; omega

/-- C40: a tile number is below `2^32`. -/
theorem C40_tile_range (lat lon : F64) : calculateTile lat lon < 2 ^ 32 := by
  apply Nat.lt_pow_two_of_testBit
  intro j hj
  unfold calculateTile
  rw [interleave_testBit, if_neg (by omega)]
  simp

/-- C40: two points in range have the same tile number exactly when they are in the same cell. -/
theorem C40_same_tile (lat lon lat' lon' : F64) (h1 : -90 ≤ lat) (h2 : lat ≤ 90) (h3 : -180 ≤ lon)
    (h4 : lon ≤ 180) (h1' : -90 ≤ lat') (h2' : lat' ≤ 90) (h3' : -180 ≤ lon') (h4' : lon' ≤ 180) :
    calculateTile lat lon = calculateTile lat' lon' ↔ tileX lon = tileX lon' ∧ tileY lat = tileY lat' := by
  constructor
  · intro h
    have g := C40_grid lat lon h1 h2 h3 h4
    have g' := C40_grid lat' lon' h1' h2' h3' h4'
    have high : ∀ {n i : Nat}, n ≤ 65535 → ¬ i < 16 → n.testBit i = false := by
      intro n i hn hi
      apply Nat.testBit_lt_two_pow
      have : 2 ^ 16 ≤ 2 ^ i := Nat.pow_le_pow_right (by omega) (by omega)
      omega
    constructor
    · apply Nat.eq_of_testBit_eq
      intro i
      by_cases hi : i < 16
      · rw [← (C40_bits lat lon i hi).2, ← (C40_bits lat' lon' i hi).2, h]
      · rw [high g.1 hi, high g'.1 hi]
    · apply Nat.eq_of_testBit_eq
      intro i
      by_cases hi : i < 16
      · rw [← (C40_bits lat lon i hi).1, ← (C40_bits lat' lon' i hi).1, h]
      · rw [high g.2.1 hi, high g'.2.1 hi]
  · rintro ⟨hx, hy⟩
    unfold calculateTile; rw [hx, hy]

/-- A concrete tile. -/
example : calculateTile (103/2) (-12/100) = 2062265820 := by decide +kernel

/-! ### C47 -/

/-- C47: booleans. Parsing inverts formatting and nothing else parses. -/
theorem C47_bool (t : Text) (b : Bool) : parseSqlBool t = some b ↔ t = toSqlBool b := by
  unfold parseSqlBool toSqlBool
  cases b <;> split_ifs <;> simp_all

/-- C47: a millisecond timestamp in `chrono`'s range, written and parsed back, is the timestamp
truncated (downward) to a whole second. -/
theorem C47_millis (t : Int64) (text : Text) (h : toSqlTimeMillis t = .ok text) :
    (parseSqlTime text).map toMillis = some (Int64.ofInt (t.toInt / 1000 * 1000)) := by
  unfold toSqlTimeMillis at h
  extract_lets secs at h
  split at h
  · rename_i hr
    injection h with h
    have := parse_showSeconds secs hr [] 0 rfl
    rw [List.append_nil] at this
    rw [← h, this]
    simp only [Option.map_some, toMillis]
    congr 2
    have : secs = t.toInt / 1000 := rfl
    push_cast
    omega
  · cases h

/-- C47: writing a timestamp succeeds exactly for the years -262143 to 262142. -/
theorem C47_millis_total (t : Int64) :
    (∃ text, toSqlTimeMillis t = .ok text) ↔
      -96465292 * 86400 ≤ t.toInt / 1000 ∧ t.toInt / 1000 < 95026237 * 86400 := by
  have e1 : (Date.mk (-262143) 1 1).toDays = -96465292 := by decide +kernel
  have e2 : (Date.mk 262143 1 1).toDays = 95026237 := by decide +kernel
  unfold toSqlTimeMillis inRange
  rw [e1, e2]
  simp only
  split <;> rename_i hr <;> simp at hr ⊢
  · exact hr
  · exact hr

/-- C47: a microsecond timestamp written and parsed back is unchanged (in nanoseconds). -/
theorem C47_micros (t : Int64) (text : Text) (h : toSqlTimeMicros t = .ok text) :
    parseSqlTime text = some (t.toInt * 1000) := by
  unfold toSqlTimeMicros at h
  extract_lets secs at h
  split at h
  · rename_i hr
    injection h with h
    set us := (t.toInt % 1000000).toNat with hus
    have hlt : us < 10 ^ 6 := by omega
    have hlen := padNat_length (w := 6) (by omega) hlt
    have hne := padNat_ne_nil 6 us
    have hd := digits_padNat 6 us
    have hz : ∀ v k, digits v (List.replicate k '0') = some (v * 10 ^ k) := by
      intro v k
      induction k generalizing v with
      | zero => simp [digits]
      | succ k ih =>
        rw [List.replicate_succ]
        simp only [digits]
        rw [show digitVal '0' = some 0 by decide]
        simp only
        rw [ih]; congr 1; ring
    have hf : scanFrac ('.' :: padNat 6 us) = some (us * 1000) := by
      simp only [scanFrac]
      rw [if_neg hne]
      rw [digits_append, hd, Option.bind_some, hz]
      simp only
      rw [List.take_append, hlen, List.take_of_length_le (by omega)]
      rw [digits_append, hd, Option.bind_some]
      rw [show (List.replicate 9 '0').take (9 - 6) = List.replicate 3 '0' by decide, hz]
      norm_num
    have := parse_showSeconds secs hr _ _ hf
    rw [← h, this]
    congr 1
    have : secs = t.toInt / 1000000 := rfl
    push_cast
    omega
  · cases h

/-- C47: null strings. -/
theorem C47_null_string (t : Text) : parseSqlNullString t = none ↔ t = "\\N".toList := by
  unfold parseSqlNullString
  split <;> simp_all

example : toSqlTimeMillis 1700000000123 = .ok "2023-11-14 22:13:20".toList := by decide +kernel
example : toSqlTimeMicros (-1) = .ok "1969-12-31 23:59:59.999999".toList := by decide +kernel

/-! ### C48 -/

/-- The pieces of a text between commas. -/
def Spec.CommaPieces (s : Text) (ps : List Text) : Prop := s = List.intercalate [','] ps ∧ ps ≠ [] ∧ ∀ p ∈ ps, ',' ∉ p

theorem intercalate_split (sep : Char) (s : Text) : List.intercalate [sep] (split sep s) = s := by
  induction s with
  | nil => simp [split, List.intercalate]
  | cons c cs ih =>
    simp only [split]
    have hne := split_ne_nil sep cs
    split
    · rename_i h; subst h
      cases hs : split c cs with
      | nil => exact absurd hs hne
      | cons p ps => rw [hs] at ih; simp [List.intercalate_cons_cons, ih]
    · cases hs : split sep cs with
      | nil => exact absurd hs hne
      | cons p ps =>
        rw [hs] at ih
        cases ps with
        | nil => simp_all [List.intercalate]
        | cons q qs => simp_all [List.intercalate_cons_cons]

theorem split_pieces_free (sep : Char) (s : Text) : ∀ p ∈ split sep s, sep ∉ p := by
  induction s with
  | nil => simp [split]
  | cons c cs ih =>
    simp only [split]
    split
    · intro p hp
      rcases List.mem_cons.1 hp with rfl | hp
      · simp
      · exact ih p hp
    · rename_i hc
      cases hs : split sep cs with
      | nil => simp; exact fun h => hc h.symm
      | cons q qs =>
        rw [hs] at ih
        intro p hp
        rcases List.mem_cons.1 hp with rfl | hp
        · have := ih q (by simp)
          simp [this]; exact fun h => hc h.symm
        · exact ih p (by simp [hp])

theorem split_intercalate (sep : Char) (ps : List Text) (hne : ps ≠ []) (h : ∀ p ∈ ps, sep ∉ p) :
    split sep (List.intercalate [sep] ps) = ps := by
  induction ps with
  | nil => exact absurd rfl hne
  | cons p ps ih =>
    cases ps with
    | nil => simpa [List.intercalate] using split_free (h p (by simp))
    | cons q qs =>
      rw [List.intercalate_cons_cons, List.append_assoc, List.singleton_append, split_sep (h p (by simp)),
        ih (by simp) (fun x hx => h x (by simp [hx]))]

theorem commaPieces_iff (s : Text) (ps : List Text) : Spec.CommaPieces s ps ↔ split ',' s = ps := by
  constructor
  · rintro ⟨rfl, hne, h⟩; exact split_intercalate ',' ps hne h
  · rintro rfl; exact ⟨(intercalate_split ',' s).symm, split_ne_nil _ _, split_pieces_free ',' s⟩

/-- The white space characters of Unicode. -/
def Spec.whiteSpace : List Nat :=
  [9, 10, 11, 12, 13, 32, 0x85, 0xA0, 0x1680, 0x2000, 0x2001, 0x2002, 0x2003, 0x2004, 0x2005, 0x2006, 0x2007, 0x2008, 0x2009,
    0x200A, 0x2028, 0x2029, 0x202F, 0x205F, 0x3000]

/-- `t` is `p` without the white space around it. -/
def Spec.Trimmed (p t : Text) : Prop :=
  ∃ a b, p = a ++ t ++ b ∧ (∀ c ∈ a ++ b, c.toNat ∈ Spec.whiteSpace) ∧
    (∀ c, t.head? = some c → c.toNat ∉ Spec.whiteSpace) ∧ ∀ c, t.getLast? = some c → c.toNat ∉ Spec.whiteSpace

theorem isWhite_iff (c : Char) : BoundingBox.isWhite c = true ↔ c.toNat ∈ Spec.whiteSpace := by
  generalize hn : c.toNat = n
  simp only [BoundingBox.isWhite, hn, Spec.whiteSpace, Bool.or_eq_true, Bool.and_eq_true, decide_eq_true_eq, List.mem_cons,
    List.not_mem_nil, or_false]
  omega

theorem dropWhile_drops (t : Text) : ∃ a, t = a ++ t.dropWhile BoundingBox.isWhite ∧ (∀ c ∈ a, c.toNat ∈ Spec.whiteSpace) ∧
    ∀ c, (t.dropWhile BoundingBox.isWhite).head? = some c → c.toNat ∉ Spec.whiteSpace := by
  induction t with
  | nil => exact ⟨[], by simp⟩
  | cons c t ih =>
    obtain ⟨a, h1, h2, h3⟩ := ih
    by_cases hc : BoundingBox.isWhite c = true
    · rw [List.dropWhile_cons_of_pos hc]
      refine ⟨c :: a, by rw [List.cons_append, ← h1], ?_, h3⟩
      simpa using ⟨(isWhite_iff c).1 hc, h2⟩
    · rw [List.dropWhile_cons_of_neg hc]
      refine ⟨[], rfl, by simp, ?_⟩
      intro d hd
      simp at hd; subst hd
      rwa [← isWhite_iff]

theorem trim_trimmed (p : Text) : Spec.Trimmed p (BoundingBox.trim p) := by
  obtain ⟨a, h1, h2, h3⟩ := dropWhile_drops p
  obtain ⟨b, k1, k2, k3⟩ := dropWhile_drops (p.dropWhile BoundingBox.isWhite).reverse
  have k1' := congrArg List.reverse k1
  rw [List.reverse_reverse, List.reverse_append] at k1'
  refine ⟨a, b.reverse, ?_, ?_, ?_, ?_⟩
  · rw [List.append_assoc]
    show p = a ++ (BoundingBox.trim p ++ b.reverse)
    rw [BoundingBox.trim, ← k1', ← h1]
  · intro c hc
    simp at hc
    rcases hc with hc | hc
    exacts [h2 c hc, k2 c hc]
  · intro c hc
    apply h3
    rw [k1']
    rw [BoundingBox.trim] at hc
    rw [List.head?_append, hc]
    rfl
  · intro c hc
    apply k3
    rw [BoundingBox.trim, List.getLast?_reverse] at hc
    exact hc

theorem prefix_white {a a' t t' : Text} (h : a ++ t = a' ++ t') (ha : ∀ c ∈ a, c.toNat ∈ Spec.whiteSpace)
    (ha' : ∀ c ∈ a', c.toNat ∈ Spec.whiteSpace) (ht : ∀ c, t.head? = some c → c.toNat ∉ Spec.whiteSpace)
    (ht' : ∀ c, t'.head? = some c → c.toNat ∉ Spec.whiteSpace) : a = a' ∧ t = t' := by
  induction a generalizing a' with
  | nil =>
    cases a' with
    | nil => simpa using h
    | cons c a' =>
      exfalso
      simp at h
      exact ht c (by rw [h]; rfl) (ha' c (by simp))
  | cons d a ih =>
    cases a' with
    | nil =>
      exfalso
      simp at h
      exact ht' d (by rw [← h]; rfl) (ha d (by simp))
    | cons c a' =>
      simp only [List.cons_append, List.cons.injEq] at h
      obtain ⟨rfl, h⟩ := h
      obtain ⟨rfl, rfl⟩ := ih h (fun c hc => ha c (by simp [hc])) (fun c hc => ha' c (by simp [hc]))
      simp

theorem trimmed_unique {p t t' : Text} (h : Spec.Trimmed p t) (h' : Spec.Trimmed p t') : t = t' := by
  obtain ⟨a, b, rfl, h2, h3, h4⟩ := h
  obtain ⟨a', b', k1, k2, k3, k4⟩ := h'
  by_cases ht : t = []
  · subst ht
    by_contra hne
    cases t' with
    | nil => exact hne rfl
    | cons c t' =>
      refine k3 c rfl (h2 c ?_)
      have : c ∈ a ++ [] ++ b := by rw [k1]; simp
      simpa using this
  by_cases ht' : t' = []
  · subst ht'
    exfalso
    cases t with
    | nil => exact ht rfl
    | cons c t =>
      refine h3 c rfl (k2 c ?_)
      have : c ∈ a' ++ [] ++ b' := by rw [← k1]; simp
      simpa using this
  rw [List.append_assoc, List.append_assoc] at k1
  have e := (prefix_white k1 (fun c hc => h2 c (by simp [hc])) (fun c hc => k2 c (by simp [hc]))
    (by intro c hc; apply h3; cases t <;> simp_all) (by intro c hc; apply k3; cases t' <;> simp_all)).2
  have e := congrArg List.reverse e
  rw [List.reverse_append, List.reverse_append] at e
  have := (prefix_white e (fun c hc => h2 c (by simp at hc; simp [hc])) (fun c hc => k2 c (by simp at hc; simp [hc]))
    (by rw [List.head?_reverse]; exact h4) (by rw [List.head?_reverse]; exact k4)).2
  exact List.reverse_injective this

theorem trim_iff (p t : Text) : Spec.Trimmed p t ↔ BoundingBox.trim p = t :=
  ⟨fun h => trimmed_unique (trim_trimmed p) h, fun h => h ▸ trim_trimmed p⟩

/-- C48: a text parses to a box exactly when it has at least four comma separated pieces whose first
four, without surrounding white space, are the numbers left, bottom, right, top of the box, each in
its range. Further pieces are ignored. -/
theorem C48_parse (parse : Text → Option F64) (s : Text) (b : BoundingBox) :
    BoundingBox.fromStr parse s = .ok b ↔
      ∃ p0 p1 p2 p3 rest t0 t1 t2 t3, Spec.CommaPieces s (p0 :: p1 :: p2 :: p3 :: rest) ∧
        Spec.Trimmed p0 t0 ∧ Spec.Trimmed p1 t1 ∧ Spec.Trimmed p2 t2 ∧ Spec.Trimmed p3 t3 ∧
        parse t0 = some b.left ∧ parse t1 = some b.bottom ∧ parse t2 = some b.right ∧ parse t3 = some b.top ∧
        (-180 ≤ b.left ∧ b.left ≤ 180) ∧ (-90 ≤ b.bottom ∧ b.bottom ≤ 90) ∧
        (-180 ≤ b.right ∧ b.right ≤ 180) ∧ (-90 ≤ b.top ∧ b.top ≤ 90) := by
  simp only [trim_iff]
  simp only [commaPieces_iff]
  unfold BoundingBox.fromStr
  match hs : split ',' s with
  | [] | [_] | [_, _] | [_, _, _] => simp [BoundingBox.fromParts]
  | p0 :: p1 :: p2 :: p3 :: rest =>
    simp only [List.map_cons, BoundingBox.fromParts, List.cons.injEq]
    constructor
    · intro h
      refine ⟨p0, p1, p2, p3, rest, _, _, _, _, ⟨rfl, rfl, rfl, rfl, rfl⟩, rfl, rfl, rfl, rfl, ?_⟩
      cases h0 : parse (BoundingBox.trim p0) <;> simp only [h0, Out.orErr_none, Out.orErr_some, Out.err_bind, Out.ok_bind] at h
      · cases h
      cases h1 : parse (BoundingBox.trim p1) <;> simp only [h1, Out.orErr_none, Out.orErr_some, Out.err_bind, Out.ok_bind] at h
      · cases h
      cases h2 : parse (BoundingBox.trim p2) <;> simp only [h2, Out.orErr_none, Out.orErr_some, Out.err_bind, Out.ok_bind] at h
      · cases h
      cases h3 : parse (BoundingBox.trim p3) <;> simp only [h3, Out.orErr_none, Out.orErr_some, Out.err_bind, Out.ok_bind] at h
      · cases h
      split at h
      · cases h
      · rename_i hr
        injection h with h; subst h
        simp only [not_or, not_not] at hr
        exact ⟨rfl, rfl, rfl, rfl, hr.1, hr.2.1, hr.2.2.1, hr.2.2.2⟩
    · rintro ⟨q0, q1, q2, q3, r, _, _, _, _, ⟨rfl, rfl, rfl, rfl, rfl⟩, rfl, rfl, rfl, rfl, h0, h1, h2, h3, a, b', c, d⟩
      rw [h0, h1, h2, h3]
      simp only [Out.orErr_some, Out.ok_bind]
      rw [if_neg (by simp only [not_or, not_not]; exact ⟨a, b', c, d⟩)]

/-- C48: a text that does not parse is an error, never a panic. -/
theorem C48_no_panic (parse : Text → Option F64) (s : Text) : BoundingBox.fromStr parse s ≠ .panic := by
  unfold BoundingBox.fromStr BoundingBox.fromParts
  split
  · rename_i p0 p1 p2 p3 _ _
    cases parse p0 <;> cases parse p1 <;> cases parse p2 <;> cases parse p3 <;> simp
    split <;> simp
  · simp

/-- With integers for numbers: white space is dropped, a fifth piece ignored, a swapped range refused. -/
example : BoundingBox.fromStr (fun t => (parseInt t).map (↑)) " -10, 20 ,30,40,x".toList = .ok ⟨-10, 20, 30, 40⟩ := by
  decide +kernel
example : BoundingBox.fromStr (fun t => (parseInt t).map (↑)) "20,-100,30,40".toList = .err := by
  decide +kernel

end OsmIo
