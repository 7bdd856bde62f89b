import Verif.Lemmas.ApidbSorted
import Verif.Lemmas.Coord
import Verif.Props.ApidbTables
import Verif.Props.Sql
/-! The records made of the rows of a dump. -/
namespace OsmIo.Apidb
open OsmIo.Text OsmIo.Sql OsmIo.Spec

/-! ### Coordinates -/

/-- `(degrees * 10000000.0).round() as i64`. -/
def seven (c : F64) : Int64 := F64.toI64 (F64.round (F64.mul c 10000000))

theorem seven_near {c : ℚ} {b : ℕ} (hb : b ≤ 180) (h : |c| ≤ b) :
    ∃ k : ℤ, seven c = Int64.ofInt k ∧ |k| ≤ b * 10000000 ∧ |(k : ℚ) / 10 ^ 7 - c| ≤ (1 / 2 + 1 / 2 ^ 19) / 10 ^ 7 := by
  obtain ⟨k, hk, hkv⟩ := F64.round_spec (F64.mul c 10000000)
  have e1 : |F64.mul c 10000000 - c * 10000000| ≤ 1 / 2 ^ 53 * |c * 10000000| := rnd_err _
  have hbq : (b : ℚ) ≤ 180 := by exact_mod_cast hb
  have hK : |c * 10000000| ≤ b * 10000000 := by
    rw [abs_mul]
    exact mul_le_mul_of_nonneg_right h (by norm_num)
  have hd : |(k : ℚ) - c * 10000000| ≤ 1 / 2 + 1 / 2 ^ 19 := by
    have h1 : (1 : ℚ) / 2 ^ 53 * |c * 10000000| ≤ 1 / 2 ^ 53 * (180 * 10000000) :=
      mul_le_mul_of_nonneg_left (by linarith) (by positivity)
    have h2 : (1 : ℚ) / 2 ^ 53 * (180 * 10000000) ≤ 1 / 2 ^ 19 := by norm_num
    have h3 : |(k : ℚ) - c * 10000000| ≤ |(k : ℚ) - F64.mul c 10000000| + |F64.mul c 10000000 - c * 10000000| := by
      have : (k : ℚ) - c * 10000000 = (k - F64.mul c 10000000) + (F64.mul c 10000000 - c * 10000000) := by ring
      rw [this]; exact abs_add_le _ _
    rw [abs_sub_comm] at hkv
    linarith
  have hkb : |k| ≤ b * 10000000 := by
    have h5 : |(k : ℚ)| < b * 10000000 + 1 := by
      have := abs_sub_abs_le_abs_sub (k : ℚ) (c * 10000000)
      have h6 : (1 : ℚ) / 2 + 1 / 2 ^ 19 < 1 := by norm_num
      linarith
    have h6 : |k| < b * 10000000 + 1 := by exact_mod_cast h5
    omega
  refine ⟨k, ?_, hkb, ?_⟩
  · have hb' : (b : ℤ) ≤ 180 := by exact_mod_cast hb
    have := abs_le.1 hkb
    rw [seven, hk, F64.toI64_int k (by omega) (by omega)]
  · have : (k : ℚ) / 10 ^ 7 - c = (k - c * 10000000) / 10 ^ 7 := by ring
    rw [this, abs_div]
    have h7 : |(10 : ℚ) ^ 7| = 10 ^ 7 := by norm_num
    rw [h7]
    exact div_le_div_of_nonneg_right hd (by norm_num)

/-- The number of a grid coordinate. -/
theorem seven_grid {k : ℤ} (hk : |k| ≤ 2 ^ 45) : seven (rnd (k / 10 ^ 7)) = Int64.ofInt k := by
  set c := rnd ((k : ℚ) / 10 ^ 7) with hc
  have e1 := rnd_err ((k : ℚ) / 10 ^ 7)
  rw [← hc] at e1
  have hkq : |(k : ℚ)| ≤ 2 ^ 45 := by exact_mod_cast hk
  have e2 : |c * 10000000 - k| ≤ 1 / 2 ^ 53 * |(k : ℚ)| := by
    have : c * 10000000 - k = (c - k / 10 ^ 7) * 10 ^ 7 := by ring
    rw [this, abs_mul]
    have h7 : |(10 : ℚ) ^ 7| = 10 ^ 7 := by norm_num
    rw [abs_div, h7] at e1
    rw [h7]
    calc |c - k / 10 ^ 7| * 10 ^ 7 ≤ (1 / 2 ^ 53 * (|(k : ℚ)| / 10 ^ 7)) * 10 ^ 7 :=
          mul_le_mul_of_nonneg_right e1 (by norm_num)
      _ = 1 / 2 ^ 53 * |(k : ℚ)| := by ring
  have e0 : |F64.mul c 10000000 - c * 10000000| ≤ 1 / 2 ^ 53 * |c * 10000000| := rnd_err _
  clear e1 hc
  clear_value c
  have e3 : |c * 10000000| ≤ |(k : ℚ)| + 1 / 2 ^ 53 * |(k : ℚ)| := by
    have := abs_sub_abs_le_abs_sub (c * 10000000) (k : ℚ)
    linarith
  have e5 : |F64.mul c 10000000 - k| < 1 / 2 := by
    have e4 : |F64.mul c 10000000 - k| ≤ |F64.mul c 10000000 - c * 10000000| + |c * 10000000 - k| := by
      have : F64.mul c 10000000 - k = (F64.mul c 10000000 - c * 10000000) + (c * 10000000 - k) := by ring
      rw [this]; exact abs_add_le _ _
    have h1 : (1 : ℚ) / 2 ^ 53 * |c * 10000000| ≤ 1 / 2 ^ 53 * (2 ^ 45 + 1 / 2 ^ 53 * 2 ^ 45) := by
      apply mul_le_mul_of_nonneg_left _ (by positivity)
      linarith
    have h2 : (1 : ℚ) / 2 ^ 53 * |(k : ℚ)| ≤ 1 / 2 ^ 53 * 2 ^ 45 :=
      mul_le_mul_of_nonneg_left hkq (by positivity)
    have h3 : (1 : ℚ) / 2 ^ 53 * (2 ^ 45 + 1 / 2 ^ 53 * 2 ^ 45) + 1 / 2 ^ 53 * 2 ^ 45 < 1 / 2 := by norm_num
    linarith
  have hkb := abs_le.1 hk
  rw [seven, F64.round_near e5, F64.toI64_int k (by omega) (by omega)]

/-- A coordinate through a dump. -/
theorem seven_back {c : ℚ} {b : ℕ} (hb : b ≤ 180) (h : |c| ≤ b) :
    -2147483648 ≤ (seven c).toInt ∧ (seven c).toInt ≤ 2147483647 ∧
    Quantised c (F64.div ((Int32.ofInt (seven c).toInt).toInt : F64) 10000000) ∧
    (OnGrid c → F64.div ((Int32.ofInt (seven c).toInt).toInt : F64) 10000000 = c) := by
  obtain ⟨k, e, hk, hq⟩ := seven_near hb h
  have hb' : (b : ℤ) ≤ 180 := by exact_mod_cast hb
  have hk' := abs_le.1 hk
  have e64 : (seven c).toInt = k := by rw [e, toInt_ofInt64 (by omega) (by omega)]
  have e32 : (Int32.ofInt k).toInt = k := Int32.toInt_ofInt_of_le (by omega) (by omega)
  rw [e64, e32]
  have hdiv : F64.div (k : F64) 10000000 = rnd (k / 10 ^ 7) := by unfold F64.div; norm_num
  rw [hdiv]
  refine ⟨by omega, by omega, ⟨k, rfl, hq⟩, ?_⟩
  rintro ⟨j, hj, rfl⟩
  have := seven_grid hj
  rw [this] at e64
  have hj' := abs_le.1 hj
  rw [toInt_ofInt64 (by omega) (by omega)] at e64
  rw [e64]

/-! ### Values -/

theorem parseI64_num (n : Int64) : parseI64 (num n.toInt) = some n := parseI64_showInt n

theorem parseI64_num32 (n : Int32) : parseI64 (num n.toInt) = some n.toInt64 := by
  rw [← Int32.toInt_toInt64, parseI64_num]

theorem parseI32_num {n : Int} (h1 : -2147483648 ≤ n) (h2 : n ≤ 2147483647) : parseI32 (num n) = some (Int32.ofInt n) := by
  unfold parseI32 num
  rw [parseInt_showInt]
  simp [h1, h2]

theorem parseI64_num' {n : Int} (h1 : -9223372036854775808 ≤ n) (h2 : n ≤ 9223372036854775807) :
    parseI64 (num n) = some (Int64.ofInt n) := by
  unfold parseI64 num
  rw [parseInt_showInt]
  simp [h1, h2]

theorem parseSqlBool_flag (b : Bool) : parseSqlBool (flag b) = some b := by cases b <;> rfl

theorem parseI32_null : parseI32 null = none := by decide

theorem parseSqlTime_time {t : Int64} (h : inRange (t.toInt / 1000) = true) :
    parseSqlTime (time t) = some (t.toInt / 1000 * 1000000000) := by
  have := parse_showSeconds _ h [] 0 rfl
  rw [List.append_nil] at this
  unfold time
  rw [this]
  simp

theorem parseSqlTime_clock {t : Int64} (h : inRange (t.toInt / 1000000) = true) :
    ∃ ns, parseSqlTime (clock t) = some ns := by
  refine ⟨_, C47_micros t _ ?_⟩
  unfold toSqlTimeMicros
  simp only
  rw [if_pos h]
  rfl

theorem floored {t : Int64} (h : inRange (t.toInt / 1000) = true) :
    FlooredToSecond t (Int64.ofInt (t.toInt / 1000 * 1000000000 / 1000000)) := by
  have e1 : (Date.mk (-262143) 1 1).toDays = -96465292 := by decide +kernel
  have e2 : (Date.mk 262143 1 1).toDays = 95026237 := by decide +kernel
  unfold inRange at h
  rw [e1, e2] at h
  simp at h
  have e : t.toInt / 1000 * 1000000000 / 1000000 = 1000 * (t.toInt / 1000) := by omega
  rw [e]
  exact ⟨t.toInt / 1000, toInt_ofInt64 (by omega) (by omega), by omega, by omega⟩

theorem floored_whole {t : Int64} (hw : WholeSecond t) :
    Int64.ofInt (t.toInt / 1000 * 1000000000 / 1000000) = t := by
  obtain ⟨s, hs⟩ := hw
  have : t.toInt / 1000 * 1000000000 / 1000000 = t.toInt := by omega
  rw [this, Int64.ofInt_toInt]

/-! ### Records -/

def nodeRec (n : Node) : NodeRecord :=
  ⟨n.id, Int32.ofInt n.coordinate.lat7.toInt, Int32.ofInt n.coordinate.lon7.toInt, n.changeset, n.visible,
   n.timestamp.toInt / 1000 * 1000000000, Int64.ofInt (calculateTile n.coordinate.lat n.coordinate.lon),
   n.version.toInt64, none⟩

def wayRec (y : Way) : ObjectRecord :=
  ⟨y.id, y.changeset, y.timestamp.toInt / 1000 * 1000000000, y.version.toInt64, y.visible, none⟩

def relationRec (y : Relation) : ObjectRecord :=
  ⟨y.id, y.changeset, y.timestamp.toInt / 1000 * 1000000000, y.version.toInt64, y.visible, none⟩

def tagRec (id : Int64) (version : Int32) (t : Tag) : TagRecord := ⟨id, version.toInt64, t.k, t.v⟩

def wayNodeRec (y : Way) (p : Int64 × Nat) : WayNodeRecord := ⟨y.id, p.1, y.version.toInt64, Int64.ofNat p.2⟩

def kindOf : Member → MemberType
  | .node _ => .node
  | .way _ => .way
  | .relation _ => .relation

def memberRec (r : Relation) (p : Member × Nat) : MemberRecord :=
  ⟨r.id, kindOf p.1, memberId p.1, memberRole p.1, r.version.toInt64, Int64.ofNat p.2⟩

theorem createNode_row {n : Node} (hg : Good (nodeRow n)) (ht : inRange (n.timestamp.toInt / 1000) = true)
    (hc : |n.coordinate.lat| ≤ 90 ∧ |n.coordinate.lon| ≤ 180) :
    createNode (dumpDef .nodes).fields (tabbed (nodeRow n)) = .ok (nodeRec n) := by
  unfold createNode
  rw [show (dumpDef .nodes).fields = List.range 9 from rfl, hg.columns (n := 9) rfl]
  obtain ⟨a1, a2, _⟩ := seven_back (b := 90) (by norm_num) (by exact_mod_cast hc.1)
  obtain ⟨b1, b2, _⟩ := seven_back (b := 180) (by norm_num) (by exact_mod_cast hc.2)
  have ea : n.coordinate.lat7 = seven n.coordinate.lat := rfl
  have eb : n.coordinate.lon7 = seven n.coordinate.lon := rfl
  have hx := C40_tile_range n.coordinate.lat n.coordinate.lon
  simp only [nodeRow, parseI64_num, ea, eb, parseI32_num a1 a2, parseI32_num b1 b2, parseSqlBool_flag,
    parseSqlTime_time ht, parseI64_num' (n := (calculateTile n.coordinate.lat n.coordinate.lon : Int)) (by omega) (by omega),
    parseI64_num32, parseI32_null, Out.unwrap, Out.ok_bind]
  rfl

theorem createWay_row {y : Way} (hg : Good (wayRow y)) (ht : inRange (y.timestamp.toInt / 1000) = true) :
    createObject (dumpDef .ways).fields (tabbed (wayRow y)) = .ok (wayRec y) := by
  unfold createObject
  rw [show (dumpDef .ways).fields = List.range 6 from rfl, hg.columns (n := 6) rfl]
  simp only [wayRow, parseI64_num, parseSqlBool_flag, parseSqlTime_time ht, parseI64_num32, parseI32_null, Out.unwrap, Out.ok_bind]
  rfl

theorem createRelation_row {y : Relation} (hg : Good (relationRow y)) (ht : inRange (y.timestamp.toInt / 1000) = true) :
    createObject (dumpDef .relations).fields (tabbed (relationRow y)) = .ok (relationRec y) := by
  unfold createObject
  rw [show (dumpDef .relations).fields = List.range 6 from rfl, hg.columns (n := 6) rfl]
  simp only [relationRow, parseI64_num, parseSqlBool_flag, parseSqlTime_time ht, parseI64_num32, parseI32_null, Out.unwrap, Out.ok_bind]
  rfl

theorem unescapeOr_escape {z : Codec} (hz : Faithful z) (s : String) : unescapeOr z (z.escape s) = s := by
  unfold unescapeOr
  rw [hz.unescape]
  rfl

theorem createNodeTag_row {z : Codec} (hz : Faithful z) {id : Int64} {version : Int32} {t : Tag}
    (hg : Good [num id.toInt, num version.toInt, z.escape t.k, z.escape t.v]) :
    createNodeTag z (dumpDef .nodeTags).fields (tabbed [num id.toInt, num version.toInt, z.escape t.k, z.escape t.v]) =
      .ok (tagRec id version t) := by
  unfold createNodeTag
  rw [show (dumpDef .nodeTags).fields = List.range 4 from rfl, hg.columns (n := 4) rfl]
  simp only [parseI64_num, parseI64_num32, unescapeOr_escape hz, Out.unwrap, Out.ok_bind]
  rfl

theorem createObjectTag_row {z : Codec} (hz : Faithful z) {id : Int64} {version : Int32} {t : Tag}
    (hg : Good [num id.toInt, z.escape t.k, z.escape t.v, num version.toInt]) :
    createObjectTag z (List.range 4) (tabbed [num id.toInt, z.escape t.k, z.escape t.v, num version.toInt]) =
      .ok (tagRec id version t) := by
  unfold createObjectTag
  rw [hg.columns (n := 4) rfl]
  simp only [parseI64_num, parseI64_num32, unescapeOr_escape hz, Out.unwrap, Out.ok_bind]
  rfl

def wayNodeCols (y : Way) (p : Int64 × Nat) : List Text := [num y.id.toInt, num p.1.toInt, num y.version.toInt, num p.2]

theorem createWayNode_row {y : Way} {p : Int64 × Nat} (hp : p.2 < 2 ^ 63) (hg : Good (wayNodeCols y p)) :
    createWayNode (dumpDef .wayNodes).fields (tabbed (wayNodeCols y p)) = .ok (wayNodeRec y p) := by
  unfold createWayNode
  rw [show (dumpDef .wayNodes).fields = List.range 4 from rfl, hg.columns (n := 4) rfl]
  simp only [wayNodeCols, parseI64_num, parseI64_num32, parseI64_num' (n := (p.2 : Int)) (by omega) (by omega), Out.unwrap, Out.ok_bind]
  rfl

def memberCols (z : Codec) (r : Relation) (p : Member × Nat) : List Text :=
  [num r.id.toInt, memberType p.1, num (memberId p.1).toInt, z.escape (memberRole p.1), num r.version.toInt, num p.2]

theorem parseMemberType_eq (m : Member) : parseMemberType (memberType m) = some (kindOf m) := by
  cases m <;> rfl

theorem createMember_row {z : Codec} (hz : Faithful z) {r : Relation} {p : Member × Nat} (hp : p.2 < 2 ^ 63)
    (hg : Good (memberCols z r p)) :
    createMember z (dumpDef .relationMembers).fields (tabbed (memberCols z r p)) = .ok (memberRec r p) := by
  unfold createMember
  rw [show (dumpDef .relationMembers).fields = List.range 6 from rfl, hg.columns (n := 6) rfl]
  simp only [memberCols, parseI64_num, parseI64_num32, parseI64_num' (n := (p.2 : Int)) (by omega) (by omega),
    parseMemberType_eq, unescapeOr_escape hz, Out.unwrap, Out.ok_bind]
  rfl

theorem createChangeset_row {id uid t : Int64} (ht : inRange (t.toInt / 1000000) = true)
    (hg : Good (Spec.changesetRow id uid (clock t))) :
    createChangeset (dumpDef .changesets).fields (tabbed (Spec.changesetRow id uid (clock t))) = .ok (id, uid) := by
  unfold createChangeset
  rw [show (dumpDef .changesets).fields = List.range 9 from rfl, hg.columns (n := 9) rfl]
  obtain ⟨ns, hns⟩ := parseSqlTime_clock ht
  simp only [Spec.changesetRow, parseI64_num, hns, parseI32_num (n := -900000000) (by omega) (by omega),
    parseI32_num (n := 900000000) (by omega) (by omega), parseI32_num (n := -1800000000) (by omega) (by omega),
    parseI32_num (n := 1800000000) (by omega) (by omega), parseI32_num (n := 0) (by omega) (by omega), Out.unwrap, Out.ok_bind]
  rfl

theorem createUser_row {id t : Int64} {name : String} (ht : inRange (t.toInt / 1000000) = true)
    (hg : Good (Spec.userRow id name (clock t))) :
    createUser (dumpDef .users).fields (tabbed (Spec.userRow id name (clock t))) = .ok (id, name) := by
  unfold createUser
  rw [show (dumpDef .users).fields = List.range 29 from rfl, hg.columns (n := 29) rfl]
  obtain ⟨ns, hns⟩ := parseSqlTime_clock ht
  have h16 : parseI16 (num 3) = some 3 := by decide +kernel
  have hst : userStatusOk "pending".toList = some () := by decide
  have hf : formatOk "markdown".toList = some () := by decide
  simp only [Spec.userRow, parseI64_num, hns, parseSqlBool_flag, h16, hst, hf,
    parseI32_num (n := 0) (by omega) (by omega), Out.unwrap, Out.ok_bind, String.ofList_toList]
  rfl

end OsmIo.Apidb
