import Verif.Lemmas.StringTable
import Verif.Lemmas.Proto
import Verif.Lemmas.Coord
/-! # Data block round trip -/
namespace OsmIo
open Wire

/-- What a coordinate becomes after writing and reading. -/
def quantCoord (c : F64) : F64 := decodeCoord 100 0 (encodeCoord 100 0 c)
/-- What a timestamp becomes after writing and reading. -/
def quantTime (t : Int64) : Int64 := t / (1000 : Int32).toInt64 * (1000 : Int32).toInt64

def Node.quant (n : Node) : Node :=
  { n with coordinate := ⟨quantCoord n.coordinate.lat, quantCoord n.coordinate.lon⟩, timestamp := quantTime n.timestamp }
def Way.quant (w : Way) : Way := { w with timestamp := quantTime w.timestamp }
def Relation.quant (r : Relation) : Relation := { r with timestamp := quantTime r.timestamp }

/-! ## Delta lists -/

/-- generic delta coding -/
def dl {α : Type} [Sub α] (last : α) : List α → List α
  | [] => []
  | r :: rs => (r - last) :: dl r rs

theorem deltas_eq_dl (l : Int64) (xs : List Int64) : deltas l xs = dl l xs := by
  induction xs generalizing l with
  | nil => rfl
  | cons x xs ih => simp [deltas, dl, ih]

theorem dl_append {α : Type} [Sub α] (l : α) (xs : List α) (x : α) :
    dl l (xs ++ [x]) = dl l xs ++ [x - xs.getLastD l] := by
  induction xs generalizing l with
  | nil => rfl
  | cons y ys ih => rw [List.getLastD_cons]; simp [dl, ih]

theorem undelta_dl (l : Int64) (xs : List Int64) : undelta l (deltas l xs) = xs := by
  induction xs generalizing l with
  | nil => rfl
  | cons x xs ih =>
    have : l + (x - l) = x := by grind
    simp [deltas, undelta, this, ih]

/-! ## Dense builder -/

/-- user index and tag index pairs of a dense node -/
abbrev DRow := Int32 × List (Int32 × Int32)

def DRow.Den (tbl : List Bytes) (r : DRow) (n : Node) : Prop := OsmIo.Den tbl r.1 n.user ∧ TagsDen tbl r.2 n.tags

/-- The dense builder after nodes `ns` with rows `rs`. -/
def denseOf (ns : List Node) (rs : List DRow) : DenseGroupBuilder :=
  let ids := ns.map (·.id)
  let lons := ns.map fun n => encodeCoord 100 0 n.coordinate.lon
  let lats := ns.map fun n => encodeCoord 100 0 n.coordinate.lat
  let ts := ns.map fun n => n.timestamp / (1000 : Int32).toInt64
  let uids := ns.map (·.uid)
  let css := ns.map (·.changeset)
  let sids := rs.map (·.1)
  { granularity := 100, date_granularity := 1000, lat_offset := 0, lon_offset := 0
    dense := { id := dl 0 ids, lat := dl 0 lats, lon := dl 0 lons, keys_vals := rs.flatMap fun r => keysVals r.2 }
    info := { version := ns.map (·.version), timestamp := dl 0 ts, changeset := dl 0 css, uid := dl 0 uids,
              user_sid := dl 0 sids, visible := ns.map (·.visible) }
    last_id := ids.getLastD 0, last_lon := lons.getLastD 0, last_lat := lats.getLastD 0
    last_timestamp := ts.getLastD 0, last_uid := uids.getLastD 0, last_changeset := css.getLastD 0
    last_sid := sids.getLastD 0 }

theorem dense_new (n : Node) (st : StringTableBuilder) :
    DenseGroupBuilder.new 100 1000 0 0 n st =
      (denseOf [n] [((st.add n.user).1, ((st.add n.user).2.addTags n.tags).1)], ((st.add n.user).2.addTags n.tags).2) := by
  simp [DenseGroupBuilder.new, denseOf, dl]

theorem dense_add (ns : List Node) (rs : List DRow) (n : Node) (st : StringTableBuilder) :
    (denseOf ns rs).add n st =
      (denseOf (ns ++ [n]) (rs ++ [((st.add n.user).1, ((st.add n.user).2.addTags n.tags).1)]),
        ((st.add n.user).2.addTags n.tags).2) := by
  simp [DenseGroupBuilder.add, denseOf, dl_append]

theorem row_spec (n : Node) (st : StringTableBuilder) (h : STInv st) :
    STInv ((st.add n.user).2.addTags n.tags).2 ∧ st.table <+: ((st.add n.user).2.addTags n.tags).2.table ∧
    DRow.Den ((st.add n.user).2.addTags n.tags).2.table ((st.add n.user).1, ((st.add n.user).2.addTags n.tags).1) n := by
  obtain ⟨i1, p1, d1⟩ := add_spec st n.user h
  obtain ⟨i2, p2, d2⟩ := addTags_spec _ n.tags i1
  exact ⟨i2, p1.trans p2, d1.mono p2, d2⟩

theorem drop_cons {α : Type} {l : List α} {i : Nat} {x : α} {r : List α} (h : l.drop i = x :: r) :
    l[i]? = some x ∧ l.drop (i + 1) = r := by
  constructor
  · have := congrArg List.head? h
    simpa using this
  · have := congrArg List.tail h
    simpa using this

theorem readDense_spec {tbl : List Bytes} (ht : TblOk tbl) (ns : List Node) (rs : List DRow)
    (h : List.Forall₂ (DRow.Den tbl) rs ns) (d : Pb.DenseNodes) (inf : Pb.DenseInfo) (hinf : d.denseinfo = some inf)
    (i : Nat) (s : DenseState)
    (hlat : d.lat.drop i = dl s.last_lat (ns.map fun n => encodeCoord 100 0 n.coordinate.lat))
    (hlon : d.lon.drop i = dl s.last_lon (ns.map fun n => encodeCoord 100 0 n.coordinate.lon))
    (hv : inf.version.drop i = ns.map (·.version))
    (hts : inf.timestamp.drop i = dl s.last_timestamp (ns.map fun n => n.timestamp / (1000 : Int32).toInt64))
    (hcs : inf.changeset.drop i = dl s.last_changeset (ns.map (·.changeset)))
    (huid : inf.uid.drop i = dl s.uid (ns.map (·.uid)))
    (hsid : inf.user_sid.drop i = dl s.last_user_sid (rs.map (·.1)))
    (hvis : inf.visible.drop i = ns.map (·.visible))
    (hkv : s.keyVals = rs.flatMap fun r => keysVals r.2) :
    readDenseGo (strs tbl) 100 1000 0 0 d i (dl s.last_id (ns.map (·.id))) s = .ok (ns.map fun n => .node n.quant) := by
  induction h generalizing i s with
  | nil => rfl
  | @cons r n rs ns hd htl ih =>
    simp only [List.map_cons, dl] at hlat hlon hv hts hcs huid hsid hvis
    obtain ⟨a1, b1⟩ := drop_cons hlat
    obtain ⟨a2, b2⟩ := drop_cons hlon
    obtain ⟨a3, b3⟩ := drop_cons hv
    obtain ⟨a4, b4⟩ := drop_cons hts
    obtain ⟨a5, b5⟩ := drop_cons hcs
    obtain ⟨a6, b6⟩ := drop_cons huid
    obtain ⟨a7, b7⟩ := drop_cons hsid
    obtain ⟨a8, b8⟩ := drop_cons hvis
    have c64 : ∀ a b : Int64, a + (b - a) = b := by intros; grind
    have c32 : ∀ a b : Int32, a + (b - a) = b := by intros; grind
    have hs := hd.1.strAt ht
    have hk := readKeyVals_spec ht hd.2 (rs.flatMap fun r => keysVals r.2)
    simp only [List.flatMap_cons] at hkv
    simp only [List.map_cons, dl, readDenseGo, a1, a2, Out.unwrap_some, Out.ok_bind, hinf, readDenseInfo, a3, a4, a5, a6, a7, a8,
      c64, c32, hs, Option.getD_some, hkv, hk]
    have := ih (i + 1)
      { last_id := n.id, last_lat := encodeCoord 100 0 n.coordinate.lat
        last_lon := encodeCoord 100 0 n.coordinate.lon, last_timestamp := n.timestamp / Int32.toInt64 1000
        timestamp := n.timestamp / Int32.toInt64 1000 * Int32.toInt64 1000, last_changeset := n.changeset
        uid := n.uid, last_user_sid := r.1, visible := n.visible
        keyVals := rs.flatMap fun r => keysVals r.2 } b1 b2 b3 b4 b5 b6 b7 b8 rfl
    rw [this]
    simp [Node.quant, quantCoord, quantTime]

theorem readDense_denseOf {tbl : List Bytes} (ht : TblOk tbl) (ns : List Node) (rs : List DRow)
    (h : List.Forall₂ (DRow.Den tbl) rs ns) :
    readGroup (strs tbl) 100 1000 0 0 (denseOf ns rs).build = .ok (ns.map fun n => .node n.quant) := by
  have := readDense_spec ht ns rs h { (denseOf ns rs).dense with denseinfo := some (denseOf ns rs).info } _ rfl 0
    (DenseState.init { (denseOf ns rs).dense with denseinfo := some (denseOf ns rs).info })
    rfl rfl rfl rfl rfl rfl rfl rfl rfl
  have e : readDense (strs tbl) 100 1000 0 0 (some { (denseOf ns rs).dense with denseinfo := some (denseOf ns rs).info }) =
    .ok (ns.map fun n => .node n.quant) := this
  simp only [readGroup, DenseGroupBuilder.build]
  rw [e]
  simp

/-! ## Ways and relations -/

def WayDen (tbl : List Bytes) (pw : Pb.Way) (w : Way) : Prop :=
  ∃ kvs sid, TagsDen tbl kvs w.tags ∧ Den tbl sid w.user ∧ pw =
    { id := w.id, refs := deltas 0 w.refs
      keys := kvs.map fun kv => kv.1.toUInt32
      vals := kvs.map fun kv => kv.2.toUInt32
      info := some
        { visible := some w.visible, uid := some w.uid, changeset := some w.changeset
          timestamp := some (w.timestamp / (1000 : Int32).toInt64), version := some w.version
          user_sid := some sid.toUInt32 } }

theorem WayDen.mono {t t' : List Bytes} (h : t <+: t') {pw w} (hd : WayDen t pw w) : WayDen t' pw w := by
  obtain ⟨kvs, sid, a, b, c⟩ := hd
  exact ⟨kvs, sid, a.mono h, b.mono h, c⟩

theorem convertWay_spec (w : Way) (st : StringTableBuilder) (h : STInv st) :
    STInv (convertWay 1000 w st).2 ∧ st.table <+: (convertWay 1000 w st).2.table ∧
      WayDen (convertWay 1000 w st).2.table (convertWay 1000 w st).1 w := by
  obtain ⟨i1, p1, d1⟩ := addTags_spec st w.tags h
  obtain ⟨i2, p2, d2⟩ := add_spec _ w.user i1
  exact ⟨i2, p1.trans p2, _, _, d1.mono p2, d2, rfl⟩

theorem readWay_spec {tbl : List Bytes} (ht : TblOk tbl) {pw w} (h : WayDen tbl pw w) :
    readWay (strs tbl) 1000 pw = .ok (.way w.quant) := by
  obtain ⟨kvs, sid, a, b, rfl⟩ := h
  simp only [readWay, readInfo, Option.getD_some]
  rw [b.strAtU ht]
  simp only [Out.ok_bind, readTags_spec ht a, undelta_dl]
  rfl

def RelDen (tbl : List Bytes) (pr : Pb.Relation) (r : Relation) : Prop :=
  ∃ roles kvs sid, List.Forall₂ (fun i (m : Member) => Den tbl i m.role) roles r.members ∧
    TagsDen tbl kvs r.tags ∧ Den tbl sid r.user ∧ pr =
    { id := r.id
      types := r.members.map Member.typeCode
      roles_sid := roles
      memids := deltas 0 (r.members.map Member.id)
      keys := kvs.map fun kv => kv.1.toUInt32
      vals := kvs.map fun kv => kv.2.toUInt32
      info := some
        { visible := some r.visible, uid := some r.uid, changeset := some r.changeset
          timestamp := some (r.timestamp / (1000 : Int32).toInt64), version := some r.version
          user_sid := some sid.toUInt32 } }

theorem RelDen.mono {t t' : List Bytes} (h : t <+: t') {pr r} (hd : RelDen t pr r) : RelDen t' pr r := by
  obtain ⟨ro, kvs, sid, x, a, b, c⟩ := hd
  exact ⟨ro, kvs, sid, x.imp fun _ _ hh => hh.mono h, a.mono h, b.mono h, c⟩

theorem convertRelation_spec (r : Relation) (st : StringTableBuilder) (h : STInv st) :
    STInv (convertRelation 1000 r st).2 ∧ st.table <+: (convertRelation 1000 r st).2.table ∧
      RelDen (convertRelation 1000 r st).2.table (convertRelation 1000 r st).1 r := by
  obtain ⟨i0, p0, d0⟩ := addRoles_spec st r.members h
  obtain ⟨i1, p1, d1⟩ := addTags_spec _ r.tags i0
  obtain ⟨i2, p2, d2⟩ := add_spec _ r.user i1
  exact ⟨i2, p0.trans (p1.trans p2), _, _, _, d0.imp fun _ _ hh => hh.mono (p1.trans p2), d1.mono p2, d2, rfl⟩

theorem mkMember_typeCode (m : Member) : mkMember m.typeCode ⟨m.id, m.role⟩ = .ok m := by
  cases m <;> rfl

theorem readMembers_spec {tbl : List Bytes} (ht : TblOk tbl) {roles : List Int32} {ms : List Member}
    (h : List.Forall₂ (fun i (m : Member) => Den tbl i m.role) roles ms) (last : Int64) :
    readMembers (strs tbl) last (deltas last (ms.map Member.id)) roles (ms.map Member.typeCode) = .ok ms := by
  induction h generalizing last with
  | nil => rfl
  | @cons i m roles ms h1 h2 ih =>
    have : last + (m.id - last) = m.id := by grind
    simp [readMembers, deltas, this, h1.strAt ht, mkMember_typeCode, ih]

theorem readRelation_spec {tbl : List Bytes} (ht : TblOk tbl) {pr r} (h : RelDen tbl pr r) :
    readRelation (strs tbl) 1000 pr = .ok (.relation r.quant) := by
  obtain ⟨ro, kvs, sid, x, a, b, rfl⟩ := h
  simp only [readRelation, readInfo, Option.getD_some]
  rw [b.strAtU ht]
  simp only [Out.ok_bind, readTags_spec ht a, readMembers_spec ht x]
  rfl

theorem mapM_forall₂ {α β γ : Type} {R : α → β → Prop} {f : α → Out γ} {g : β → γ} {as : List α} {bs : List β}
    (h : List.Forall₂ R as bs) (hf : ∀ a b, R a b → f a = .ok (g b)) : as.mapM f = .ok (bs.map g) := by
  induction h with
  | nil => rfl
  | cons h1 h2 ih => simp [hf _ _ h1, ih]

/-! ## The whole block -/

def nodesOf (es : List Element) : List Node := es.filterMap fun | .node n => some n | _ => none
def waysOf (es : List Element) : List Way := es.filterMap fun | .way w => some w | _ => none
def relationsOf (es : List Element) : List Relation := es.filterMap fun | .relation r => some r | _ => none

structure SerInv (s : SerState) (es : List Element) : Prop where
  st : STInv s.st
  dense : (nodesOf es = [] ∧ s.dense = none) ∨
    (nodesOf es ≠ [] ∧ ∃ rs, List.Forall₂ (DRow.Den s.st.table) rs (nodesOf es) ∧ s.dense = some (denseOf (nodesOf es) rs))
  ways : (waysOf es = [] ∧ s.ways = none) ∨
    (waysOf es ≠ [] ∧ ∃ ws, List.Forall₂ (WayDen s.st.table) ws (waysOf es) ∧ s.ways = some ws)
  rels : (relationsOf es = [] ∧ s.relations = none) ∨
    (relationsOf es ≠ [] ∧ ∃ rs, List.Forall₂ (RelDen s.st.table) rs (relationsOf es) ∧ s.relations = some rs)

theorem DRow.Den.mono {t t' : List Bytes} (h : t <+: t') {r n} (hd : DRow.Den t r n) : DRow.Den t' r n :=
  ⟨hd.1.mono h, hd.2.mono h⟩

theorem forall₂_snoc {α β : Type} {R : α → β → Prop} {as bs a b} (h : List.Forall₂ R as bs) (hab : R a b) :
    List.Forall₂ R (as ++ [a]) (bs ++ [b]) := by
  induction h with
  | nil => exact .cons hab .nil
  | cons h1 _ ih => exact .cons h1 ih

theorem SerInv.step {s : SerState} {es : List Element} (h : SerInv s es) (e : Element) :
    SerInv (s.step e) (es ++ [e]) := by
  obtain ⟨h1, h2, h3, h4⟩ := h
  cases e with
  | node n =>
    obtain ⟨i, p, r⟩ := row_spec n s.st h1
    have hn : nodesOf (es ++ [.node n]) = nodesOf es ++ [n] := by simp [nodesOf]
    have hw : waysOf (es ++ [.node n]) = waysOf es := by simp [waysOf]
    have hr : relationsOf (es ++ [.node n]) = relationsOf es := by simp [relationsOf]
    rcases h2 with ⟨h2, h2'⟩ | ⟨h2, rs, h2', h2''⟩
    · have e : s.step (.node n) = { s with st := ((s.st.add n.user).2.addTags n.tags).2, dense := some (denseOf [n] [((s.st.add n.user).1, ((s.st.add n.user).2.addTags n.tags).1)]) } := by
        simp only [SerState.step, h2', dense_new]
      rw [e]
      refine ⟨i, .inr ⟨by simp [hn], [((s.st.add n.user).1, ((s.st.add n.user).2.addTags n.tags).1)], ?_, ?_⟩, ?_, ?_⟩
      · rw [hn, h2]; exact .cons r .nil
      · rw [hn, h2]; rfl
      · rw [hw]; exact h3.imp_right fun ⟨a, ws, b, c⟩ => ⟨a, ws, b.imp fun _ _ hh => hh.mono p, c⟩
      · rw [hr]; exact h4.imp_right fun ⟨a, ws, b, c⟩ => ⟨a, ws, b.imp fun _ _ hh => hh.mono p, c⟩
    · have e : s.step (.node n) = { s with st := ((s.st.add n.user).2.addTags n.tags).2, dense := some (denseOf (nodesOf es ++ [n]) (rs ++ [((s.st.add n.user).1, ((s.st.add n.user).2.addTags n.tags).1)])) } := by
        simp only [SerState.step, h2'', dense_add]
      rw [e]
      refine ⟨i, .inr ⟨by simp [hn], rs ++ [((s.st.add n.user).1, ((s.st.add n.user).2.addTags n.tags).1)], ?_, ?_⟩, ?_, ?_⟩
      · rw [hn]; exact forall₂_snoc (h2'.imp fun _ _ hh => hh.mono p) r
      · rw [hn]
      · rw [hw]; exact h3.imp_right fun ⟨a, ws, b, c⟩ => ⟨a, ws, b.imp fun _ _ hh => hh.mono p, c⟩
      · rw [hr]; exact h4.imp_right fun ⟨a, ws, b, c⟩ => ⟨a, ws, b.imp fun _ _ hh => hh.mono p, c⟩
  | way w =>
    obtain ⟨i, p, r⟩ := convertWay_spec w s.st h1
    have hn : nodesOf (es ++ [.way w]) = nodesOf es := by simp [nodesOf]
    have hw : waysOf (es ++ [.way w]) = waysOf es ++ [w] := by simp [waysOf]
    have hr : relationsOf (es ++ [.way w]) = relationsOf es := by simp [relationsOf]
    refine ⟨i, ?_, .inr ⟨by simp [hw], s.ways.getD [] ++ [(convertWay 1000 w s.st).1], ?_, rfl⟩, ?_⟩
    · rw [hn]; exact h2.imp_right fun ⟨a, ws, b, c⟩ => ⟨a, ws, b.imp fun _ _ hh => hh.mono p, c⟩
    · rw [hw]
      rcases h3 with ⟨h3, h3'⟩ | ⟨h3, ws, h3', h3''⟩
      · rw [h3, h3']; exact .cons r .nil
      · rw [h3'']; exact forall₂_snoc (h3'.imp fun _ _ hh => hh.mono p) r
    · rw [hr]; exact h4.imp_right fun ⟨a, ws, b, c⟩ => ⟨a, ws, b.imp fun _ _ hh => hh.mono p, c⟩
  | relation w =>
    obtain ⟨i, p, r⟩ := convertRelation_spec w s.st h1
    have hn : nodesOf (es ++ [.relation w]) = nodesOf es := by simp [nodesOf]
    have hw : waysOf (es ++ [.relation w]) = waysOf es := by simp [waysOf]
    have hr : relationsOf (es ++ [.relation w]) = relationsOf es ++ [w] := by simp [relationsOf]
    refine ⟨i, ?_, ?_, .inr ⟨by simp [hr], s.relations.getD [] ++ [(convertRelation 1000 w s.st).1], ?_, rfl⟩⟩
    · rw [hn]; exact h2.imp_right fun ⟨a, ws, b, c⟩ => ⟨a, ws, b.imp fun _ _ hh => hh.mono p, c⟩
    · rw [hw]; exact h3.imp_right fun ⟨a, ws, b, c⟩ => ⟨a, ws, b.imp fun _ _ hh => hh.mono p, c⟩
    · rw [hr]
      rcases h4 with ⟨h3, h3'⟩ | ⟨h3, ws, h3', h3''⟩
      · rw [h3, h3']; exact .cons r .nil
      · rw [h3'']; exact forall₂_snoc (h3'.imp fun _ _ hh => hh.mono p) r
  | sentinel =>
    have hn : nodesOf (es ++ [.sentinel]) = nodesOf es := by simp [nodesOf]
    have hw : waysOf (es ++ [.sentinel]) = waysOf es := by simp [waysOf]
    have hr : relationsOf (es ++ [.sentinel]) = relationsOf es := by simp [relationsOf]
    exact ⟨h1, by rw [hn]; exact h2, by rw [hw]; exact h3, by rw [hr]; exact h4⟩

/-- State of `OsmData::serialize` after the loop. -/
def serFinal (es : List Element) : SerState := es.foldl SerState.step ⟨StringTableBuilder.new, none, none, none⟩

theorem serFinal_inv (es : List Element) : SerInv (serFinal es) es := by
  have gen : ∀ (es pre : List Element) s, SerInv s pre → SerInv (es.foldl SerState.step s) (pre ++ es) := by
    intro es
    induction es with
    | nil => intro pre s h; simpa using h
    | cons e es ih =>
      intro pre s h
      have := ih (pre ++ [e]) _ (h.step e)
      simpa using this
  exact gen es [] _ ⟨STInv.new, .inl ⟨rfl, rfl⟩, .inl ⟨rfl, rfl⟩, .inl ⟨rfl, rfl⟩⟩

theorem flatten_length_ge {α : Type} (l : List (List α)) (h : ∀ x ∈ l, 1 ≤ x.length) : l.length ≤ l.flatten.length := by
  induction l with
  | nil => simp
  | cons x xs ih =>
    have := h x (by simp)
    have := ih fun y hy => h y (by simp [hy])
    simp only [List.flatten_cons, List.length_append, List.length_cons]; omega

theorem table_length_le (p : Pb.PrimitiveBlock) : p.stringtable.s.length ≤ p.encode.length := by
  have h1 : (⟨1, .len (encFields (p.stringtable.fields))⟩ : Field) ∈ p.fields := by simp [Pb.PrimitiveBlock.fields]
  have h2 := encField_mem_le h1
  have h3 := encField_len_le 1 (encFields (p.stringtable.fields))
  have h4 : p.stringtable.s.length ≤ (encFields (p.stringtable.fields)).length := by
    unfold encFields
    have := flatten_length_ge ((p.stringtable.fields).map encField) (by
      intro x hx
      simp only [List.mem_map] at hx
      obtain ⟨f, hf, rfl⟩ := hx
      simp only [Pb.StringTable.fields, repF, List.mem_map] at hf
      obtain ⟨a, _, rfl⟩ := hf
      have := encField_len_le 1 a
      unfold encField; simp [Val.wt]
      unfold encVarint; split
      · simp
      · simp; omega)
    simpa [Pb.StringTable.fields, repF] using this
  unfold Pb.PrimitiveBlock.encode
  omega

/-- What is kept of a list of elements handed to a block: only one kind. -/
def kept (es : List Element) : List Element :=
  if nodesOf es ≠ [] then (nodesOf es).map .node
  else if waysOf es ≠ [] then (waysOf es).map .way
  else (relationsOf es).map .relation

def Element.quant : Element → Element
  | .node n => .node n.quant
  | .way w => .way w.quant
  | .relation r => .relation r.quant
  | .sentinel => .sentinel

theorem parse_serialize (es : List Element) (hl : (serializeData es).length < 2 ^ 31) :
    parseData (serializeData es) = .ok ((kept es).map Element.quant) := by
  have hd : Pb.PrimitiveBlock.decode (serializeData es) = some (toPrimitiveBlock es) :=
    Pb.PrimitiveBlock.merge_encode _ (by unfold serializeData at hl; omega)
  obtain ⟨h1, h2, h3, h4⟩ := serFinal_inv es
  have ht : TblOk (serFinal es).st.table := ⟨h1.utf, by
    have := table_length_le (toPrimitiveBlock es)
    have e : (toPrimitiveBlock es).stringtable.s = (serFinal es).st.table := rfl
    rw [e] at this
    unfold serializeData at hl
    omega⟩
  unfold parseData
  rw [hd]
  simp only [fromPrimitiveBlock]
  have e : (toPrimitiveBlock es).stringtable.s = (serFinal es).st.table := rfl
  rw [e, mapM_strOf _ h1.utf]
  have key : ∀ g : Pb.PrimitiveGroup, (toPrimitiveBlock es).primitivegroup = [g] →
      readGroup (strs (serFinal es).st.table) 100 1000 0 0 g = .ok ((kept es).map Element.quant) →
      (do
        let tbl ← Out.ok (strs (serFinal es).st.table)
        let groups ← (toPrimitiveBlock es).primitivegroup.mapM (readGroup tbl ((toPrimitiveBlock es).granularity.getD 100).toInt64
          ((toPrimitiveBlock es).date_granularity.getD 1000) ((toPrimitiveBlock es).lat_offset.getD 0) ((toPrimitiveBlock es).lon_offset.getD 0))
        .ok groups.flatten) = Out.ok ((kept es).map Element.quant) := by
    intro g hg hr
    rw [hg]
    have e1 : (toPrimitiveBlock es).granularity = some 100 := rfl
    have e2 : (toPrimitiveBlock es).date_granularity = some 1000 := rfl
    have e3 : (toPrimitiveBlock es).lat_offset = some 0 := rfl
    have e4 : (toPrimitiveBlock es).lon_offset = some 0 := rfl
    simp [e1, e2, e3, e4, hr]
  have hgrp : (toPrimitiveBlock es).primitivegroup = [match (serFinal es).dense with
    | some d => d.build
    | none =>
      match (serFinal es).ways with
      | some ws => { ways := ws }
      | none =>
        match (serFinal es).relations with
        | some rs => { relations := rs }
        | none => {}] := rfl
  rcases h2 with ⟨h2, h2'⟩ | ⟨h2, rs, h2', h2''⟩
  · rcases h3 with ⟨h3, h3'⟩ | ⟨h3, ws, h3', h3''⟩
    · rcases h4 with ⟨h4, h4'⟩ | ⟨h4, ws, h4', h4''⟩
      · rw [h2', h3', h4'] at hgrp
        refine key _ hgrp ?_
        simp [kept, h2, h3, h4, readGroup, readDense]
      · rw [h2', h3', h4''] at hgrp
        refine key _ hgrp ?_
        have := mapM_forall₂ (f := readRelation (strs (serFinal es).st.table) 1000) (g := fun r => .relation r.quant) h4' (fun _ _ h => readRelation_spec ht h)
        simp [kept, h2, h3, readGroup, readDense, this, Element.quant]
    · rw [h2', h3''] at hgrp
      refine key _ hgrp ?_
      have := mapM_forall₂ (f := readWay (strs (serFinal es).st.table) 1000) (g := fun r => .way r.quant) h3' (fun _ _ h => readWay_spec ht h)
      simp [kept, h2, h3, readGroup, readDense, this, Element.quant]
  · rw [h2''] at hgrp
    refine key _ hgrp ?_
    rw [readDense_denseOf ht _ _ h2']
    simp [kept, h2, Element.quant]

end OsmIo
