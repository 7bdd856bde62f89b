import Verif.Model.OsmData
import Verif.Lemmas.Wire
/-! # String table builder lemmas -/
namespace OsmIo
open Wire

/-- Index `i` denotes `s` in the finished table `tbl`, and is not the terminator 0. -/
def Den (tbl : List Bytes) (i : Int32) (s : String) : Prop :=
  ∃ n, 0 < n ∧ i = Int32.ofNat n ∧ tbl[n]? = some (strBytes s)

theorem Den.mono {t t' : List Bytes} (h : t <+: t') {i : Int32} {s : String} (hd : Den t i s) : Den t' i s := by
  obtain ⟨n, h0, hi, hn⟩ := hd
  obtain ⟨u, rfl⟩ := h
  refine ⟨n, h0, hi, ?_⟩
  rw [List.getElem?_append_left (by
    rcases Nat.lt_or_ge n t.length with h | h
    · exact h
    · simp [List.getElem?_eq_none h] at hn)]
  exact hn

structure STInv (b : StringTableBuilder) : Prop where
  ne : 0 < b.table.length
  den : ∀ s i, b.index.lookup s = some i → Den b.table i s
  utf : ∀ x ∈ b.table, ∃ s, x = strBytes s

theorem STInv.new : STInv StringTableBuilder.new where
  ne := by simp [StringTableBuilder.new]
  den := by intro s i h; simp [StringTableBuilder.new] at h
  utf := by intro x hx; exact ⟨"", by simpa [StringTableBuilder.new] using hx⟩

theorem add_spec (b : StringTableBuilder) (s : String) (hb : STInv b) :
    STInv (b.add s).2 ∧ b.table <+: (b.add s).2.table ∧ Den (b.add s).2.table (b.add s).1 s := by
  unfold StringTableBuilder.add
  split
  · next i hi => exact ⟨hb, List.prefix_rfl, hb.den s i hi⟩
  · next hn =>
    have hi : Int32.ofNat (b.table ++ [strBytes s]).length - 1 = Int32.ofNat b.table.length := by
      simp [Int32.ofNat_add]
    have hd : Den (b.table ++ [strBytes s]) (Int32.ofNat (b.table ++ [strBytes s]).length - 1) s :=
      ⟨b.table.length, hb.ne, hi, by simp⟩
    refine ⟨⟨by simp, ?_, ?_⟩, by simp, hd⟩
    · intro t i h
      simp only [List.lookup_cons] at h
      by_cases hts : t = s
      · subst hts; simp only [BEq.rfl] at h; injection h with h; rw [← h]; exact hd
      · have : (t == s) = false := by simp [hts]
        rw [this] at h
        exact (hb.den t i h).mono (by simp)
    · intro x hx
      simp at hx
      rcases hx with hx | rfl
      · exact hb.utf x hx
      · exact ⟨s, rfl⟩

/-- The index pairs denote the tags. -/
def TagsDen (tbl : List Bytes) (kvs : List (Int32 × Int32)) (tags : List Tag) : Prop :=
  List.Forall₂ (fun kv t => Den tbl kv.1 t.k ∧ Den tbl kv.2 t.v) kvs tags

theorem TagsDen.mono {t t' : List Bytes} (h : t <+: t') {kvs tags} (hd : TagsDen t kvs tags) : TagsDen t' kvs tags :=
  List.Forall₂.imp (fun _ _ hh => ⟨hh.1.mono h, hh.2.mono h⟩) hd

theorem addTags_spec (b : StringTableBuilder) (ts : List Tag) (hb : STInv b) :
    STInv (b.addTags ts).2 ∧ b.table <+: (b.addTags ts).2.table ∧ TagsDen (b.addTags ts).2.table (b.addTags ts).1 ts := by
  induction ts generalizing b with
  | nil => exact ⟨hb, List.prefix_rfl, .nil⟩
  | cons t ts ih =>
    obtain ⟨i1, p1, d1⟩ := add_spec b t.k hb
    obtain ⟨i2, p2, d2⟩ := add_spec (b.add t.k).2 t.v i1
    obtain ⟨i3, p3, d3⟩ := ih ((b.add t.k).2.add t.v).2 i2
    exact ⟨i3, p1.trans (p2.trans p3), .cons ⟨d1.mono (p2.trans p3), d2.mono p3⟩ d3⟩

theorem addRoles_spec (b : StringTableBuilder) (ms : List Member) (hb : STInv b) :
    STInv (addRoles b ms).2 ∧ b.table <+: (addRoles b ms).2.table ∧
      List.Forall₂ (fun i (m : Member) => Den (addRoles b ms).2.table i m.role) (addRoles b ms).1 ms := by
  induction ms generalizing b with
  | nil => exact ⟨hb, List.prefix_rfl, .nil⟩
  | cons m ms ih =>
    obtain ⟨i1, p1, d1⟩ := add_spec b m.role hb
    obtain ⟨i3, p3, d3⟩ := ih (b.add m.role).2 i1
    exact ⟨i3, p1.trans p3, .cons (d1.mono p3) d3⟩

/-! ## Reading back through the decoded table -/

/-- The decoded strings of a table. -/
def strs (tbl : List Bytes) : List String := tbl.filterMap strOf

theorem mapM_strOf (tbl : List Bytes) (h : ∀ x ∈ tbl, ∃ s, x = strBytes s) :
    (tbl.mapM fun b => Out.unwrap (strOf b)) = .ok (strs tbl) := by
  induction tbl with
  | nil => rfl
  | cons x xs ih =>
    obtain ⟨s, rfl⟩ := h x (by simp)
    simp [strs, ih (fun y hy => h y (by simp [hy])), strOf_strBytes]

theorem strs_getElem? (tbl : List Bytes) (h : ∀ x ∈ tbl, ∃ s, x = strBytes s) (n : Nat) (s : String)
    (hn : tbl[n]? = some (strBytes s)) : (strs tbl)[n]? = some s := by
  induction tbl generalizing n with
  | nil => simp at hn
  | cons x xs ih =>
    obtain ⟨t, rfl⟩ := h x (by simp)
    cases n with
    | zero => simp at hn; have := strBytes_inj hn; subst this; simp [strs, strOf_strBytes]
    | succ n =>
      have := ih (fun y hy => h y (by simp [hy])) n (by simpa using hn)
      simpa [strs, strOf_strBytes] using this

/-- A table whose indices all fit. -/
structure TblOk (tbl : List Bytes) : Prop where
  utf : ∀ x ∈ tbl, ∃ s, x = strBytes s
  small : tbl.length < 2 ^ 31

theorem ofNat_usize {n : Nat} (h : n < 2 ^ 31) : i32AsUsize (Int32.ofNat n) = n := by
  have := Int32.toInt_ofNat_of_lt h
  unfold i32AsUsize
  rw [Int64.toNat_toUInt64_of_le] <;> simp [Int64.le_iff_toInt_le, Int64.toNatClampNeg, this]

theorem ofNat_u32 {n : Nat} (h : n < 2 ^ 31) : (Int32.ofNat n).toUInt32.toNat = n := by
  simp; omega

theorem ofNat_ne_zero {n : Nat} (h0 : 0 < n) (h : n < 2 ^ 31) : Int32.ofNat n ≠ 0 := by
  intro h1
  have := Int32.toInt_ofNat_of_lt h
  rw [h1] at this; simp at this; omega

theorem Den.lt {tbl i s} (h : Den tbl i s) : ∃ n, 0 < n ∧ n < tbl.length ∧ i = Int32.ofNat n ∧ tbl[n]? = some (strBytes s) := by
  obtain ⟨n, h0, hi, hn⟩ := h
  refine ⟨n, h0, ?_, hi, hn⟩
  rcases Nat.lt_or_ge n tbl.length with h | h
  · exact h
  · simp [List.getElem?_eq_none h] at hn

theorem Den.strAt {tbl i s} (ht : TblOk tbl) (h : Den tbl i s) : strAt (strs tbl) (i32AsUsize i) = .ok s := by
  obtain ⟨n, h0, hl, rfl, hn⟩ := h.lt
  rw [ofNat_usize (by have := ht.small; omega), OsmIo.strAt, strs_getElem? tbl ht.utf n s hn]; rfl

theorem Den.strAtU {tbl i s} (ht : TblOk tbl) (h : Den tbl i s) : OsmIo.strAt (strs tbl) i.toUInt32.toNat = .ok s := by
  obtain ⟨n, h0, hl, rfl, hn⟩ := h.lt
  rw [ofNat_u32 (by have := ht.small; omega), OsmIo.strAt, strs_getElem? tbl ht.utf n s hn]; rfl

theorem Den.ne_zero {tbl i s} (ht : TblOk tbl) (h : Den tbl i s) : i ≠ 0 := by
  obtain ⟨n, h0, hl, rfl, hn⟩ := h.lt
  exact ofNat_ne_zero h0 (by have := ht.small; omega)

theorem readKeyVals_spec {tbl} (ht : TblOk tbl) {kvs tags} (h : TagsDen tbl kvs tags) (rest : List Int32) :
    readKeyVals (strs tbl) (keysVals kvs ++ rest) = .ok (tags, rest) := by
  induction h with
  | nil => show readKeyVals (strs tbl) (0 :: rest) = _; rw [readKeyVals.eq_def]; simp
  | @cons kv t kvs tags h1 h2 ih =>
    obtain ⟨k, v⟩ := kv
    have e : keysVals ((k, v) :: kvs) ++ rest = k :: v :: (keysVals kvs ++ rest) := by simp [keysVals]
    rw [e, readKeyVals, if_neg (h1.1.ne_zero ht)]
    simp [h1.1.strAt ht, h1.2.strAt ht, ih]

theorem readTags_spec {tbl} (ht : TblOk tbl) {kvs tags} (h : TagsDen tbl kvs tags) :
    readTags (strs tbl) (kvs.map fun kv => kv.1.toUInt32) (kvs.map fun kv => kv.2.toUInt32) = .ok tags := by
  induction h with
  | nil => rfl
  | @cons kv t kvs tags h1 h2 ih =>
    simp only [List.map_cons, readTags]
    rw [h1.1.strAtU ht]
    simp only [Out.ok_bind]
    rw [h1.2.strAtU ht]
    simp [ih]

end OsmIo
