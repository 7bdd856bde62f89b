import Verif.Spec.Format
import Verif.Lemmas.OsmData
/-! # Reading a block according to its published meaning -/
namespace OsmIo
open Wire Spec

theorem i64_ofInt_add (a : ℤ) (b : Int64) : Int64.ofInt a + b = Int64.ofInt (a + b.toInt) := by
  rw [Int64.ofInt_add, Int64.ofInt_toInt]

theorem i32_ofInt_add (a : ℤ) (b : Int32) : Int32.ofInt a + b = Int32.ofInt (a + b.toInt) := by
  rw [Int32.ofInt_add, Int32.ofInt_toInt]

/-- Sum of the first `i` entries. -/
def before64 (ds : List Int64) (i : Nat) : ℤ := ((ds.take i).map Int64.toInt).sum
def before32 (ds : List Int32) (i : Nat) : ℤ := ((ds.take i).map Int32.toInt).sum

theorem before64_succ {ds : List Int64} {i : Nat} {d : Int64} (h : ds[i]? = some d) :
    Format.sum64 ds i = before64 ds i + d.toInt := by
  simp [Format.sum64, before64, List.take_add_one, h]

theorem before32_succ {ds : List Int32} {i : Nat} {d : Int32} (h : ds[i]? = some d) :
    Format.sum32 ds i = before32 ds i + d.toInt := by
  simp [Format.sum32, before32, List.take_add_one, h]

/-- The string table of a block, as the decoder sees it. -/
abbrev tblOf (p : Pb.PrimitiveBlock) : List Bytes := p.stringtable.s

theorem Entry.nat {p : Pb.PrimitiveBlock} {n : Nat} {s : String} (ht : TblOk (tblOf p)) (h : Format.Entry p n s) :
    strAt (strs (tblOf p)) n = .ok s := by
  obtain ⟨m, h1, h2⟩ := h
  have : n = m := by exact_mod_cast h1
  subst this
  rw [strAt, strs_getElem? _ ht.utf n s h2]; rfl

theorem Entry.lt {p : Pb.PrimitiveBlock} {i : ℤ} {s : String} (ht : TblOk (tblOf p)) (h : Format.Entry p i s) :
    ∃ n : Nat, i = n ∧ n < 2 ^ 31 ∧ strAt (strs (tblOf p)) n = .ok s := by
  obtain ⟨m, h1, h2⟩ := h
  have hm : m < p.stringtable.s.length := by
    rcases Nat.lt_or_ge m p.stringtable.s.length with h | h
    · exact h
    · simp [List.getElem?_eq_none h] at h2
  refine ⟨m, h1, lt_trans hm ht.small, ?_⟩
  rw [strAt, strs_getElem? _ ht.utf m s h2]; rfl

theorem Entry.i32 {p : Pb.PrimitiveBlock} {i : Int32} {s : String} (ht : TblOk (tblOf p)) (h : Format.Entry p i.toInt s) :
    strAt (strs (tblOf p)) (i32AsUsize i) = .ok s := by
  obtain ⟨n, h1, h2, h3⟩ := Entry.lt ht h
  have : i = Int32.ofNat n := by
    apply Int32.toInt_inj.1; rw [h1, Int32.toInt_ofNat_of_lt h2]
  rw [this, ofNat_usize h2]; exact h3

theorem Entry.sum {p : Pb.PrimitiveBlock} {i : ℤ} {s : String} (ht : TblOk (tblOf p)) (h : Format.Entry p i s) :
    strAt (strs (tblOf p)) (i32AsUsize (Int32.ofInt i)) = .ok s := by
  obtain ⟨n, h1, h2, h3⟩ := Entry.lt ht h
  rw [h1, show Int32.ofInt (n : ℤ) = Int32.ofNat n from Int32.toInt_inj.1 (by simp), ofNat_usize h2]; exact h3

theorem readTags_of {p : Pb.PrimitiveBlock} {keys vals : List UInt32} {tags : List Tag} (ht : TblOk (tblOf p))
    (h : Format.Tags p keys vals tags) : readTags (strs (tblOf p)) keys vals = .ok tags := by
  obtain ⟨pairs, rfl, rfl, h⟩ := h
  induction h with
  | nil => rfl
  | @cons kv t kvs tags h1 h2 ih =>
    simp only [List.map_cons, readTags, Entry.nat ht h1.1, Out.ok_bind, Entry.nat ht h1.2, ih]

theorem readKeyVals_of {p : Pb.PrimitiveBlock} {codes : List Int32} {tags : List Tag} (ht : TblOk (tblOf p))
    (h : Format.KeysVals p codes tags) (rest : List Int32) :
    readKeyVals (strs (tblOf p)) (codes ++ 0 :: rest) = .ok (tags, rest) := by
  obtain ⟨pairs, rfl, h⟩ := h
  induction h with
  | nil => show readKeyVals _ (0 :: rest) = _; rw [readKeyVals.eq_def]; simp
  | @cons kv t kvs tags h1 h2 ih =>
    simp only [List.flatMap_cons, List.cons_append, List.nil_append]
    rw [readKeyVals, if_neg h1.1]
    simp [Entry.i32 ht h1.2.1, Entry.i32 ht h1.2.2, ih]

theorem readInfo_of {p : Pb.PrimitiveBlock} {info : Pb.Info} {version : Int32} {timestamp changeset : Int64} {uid : Int32}
    {user : String} {visible : Bool} (ht : TblOk (tblOf p))
    (h : Format.Info p info version timestamp changeset uid user visible) :
    readInfo (strs (tblOf p)) (p.date_granularity.getD 1000) (some info) = .ok ⟨timestamp, changeset, uid, user, visible, version⟩ := by
  obtain ⟨h1, ⟨t, h2, h2'⟩, h3, h4, ⟨i, h5, h5'⟩, h6⟩ := h
  have hv : info.visible.getD true = visible := by
    rcases h6 with h | ⟨h, h'⟩ <;> simp [h]
    exact h'
  have ht' : t * (p.date_granularity.getD 1000).toInt64 = timestamp := by
    rw [← Int64.ofInt_toInt timestamp, h2', Int64.ofInt_mul, Int64.ofInt_toInt, Int64.mul_comm]
    congr 1
  simp [readInfo, h5, Entry.nat ht h5', h2, h3, h4, h1, hv, ht']

theorem decodeCoord_of {g : Int32} {o v : Int64} {c : F64} {k : ℤ} (hv : v = Int64.ofInt k)
    (h : Format.Degrees (o.toInt + g.toInt * k) c) : decodeCoord g.toInt64 o v = c := by
  subst hv
  have e : o + g.toInt64 * Int64.ofInt k = Int64.ofInt (o.toInt + g.toInt * k) := by
    rw [Int64.ofInt_add, Int64.ofInt_mul, Int64.ofInt_toInt, ← Int32.toInt_toInt64, Int64.ofInt_toInt]
  obtain ⟨h1, h2⟩ := h
  have e2 : (Int64.ofInt (o.toInt + g.toInt * k)).toInt = o.toInt + g.toInt * k := by
    rw [abs_le] at h1
    exact toInt_ofInt64 (by omega) (by omega)
  rw [decodeCoord, e, F64.ofI64_eq _ (by rw [e2]; exact h1), e2, h2, F64.div]
  norm_num

/-! ### Dense nodes -/

/-- The state of the loop before node number `i`. -/
def DenseAt (d : Pb.DenseNodes) (inf : Pb.DenseInfo) (i : Nat) (s : DenseState) : Prop :=
  s.last_id = Int64.ofInt (before64 d.id i) ∧ s.last_lat = Int64.ofInt (before64 d.lat i) ∧
  s.last_lon = Int64.ofInt (before64 d.lon i) ∧ s.last_timestamp = Int64.ofInt (before64 inf.timestamp i) ∧
  s.last_changeset = Int64.ofInt (before64 inf.changeset i) ∧ s.uid = Int32.ofInt (before32 inf.uid i) ∧
  s.last_user_sid = Int32.ofInt (before32 inf.user_sid i)

theorem readDenseGo_of {p : Pb.PrimitiveBlock} {d : Pb.DenseNodes} {inf : Pb.DenseInfo} {ns : List Node} (ht : TblOk (tblOf p))
    (hinf : d.denseinfo = some inf) (hcount : d.id.length = ns.length)
    (hid : ∀ i n, ns[i]? = some n → n.id.toInt = Format.sum64 d.id i)
    (hpos : ∀ i n, ns[i]? = some n → i < d.lat.length ∧ i < d.lon.length ∧
      Format.Position p (Format.sum64 d.lat i) (Format.sum64 d.lon i) n.coordinate)
    (hin : ∀ i n, ns[i]? = some n → Format.DenseInfo p inf i n)
    (kvs : Nat → List Int32)
    (hkv : ∀ i n, ns[i]? = some n → readKeyVals (strs (tblOf p)) (kvs i) = .ok (n.tags, kvs (i + 1)))
    (i : Nat) (s : DenseState) (hs : DenseAt d inf i s) (hk : s.keyVals = kvs i) :
    readDenseGo (strs (tblOf p)) (p.granularity.getD 100).toInt64 (p.date_granularity.getD 1000) (p.lat_offset.getD 0)
      (p.lon_offset.getD 0) d i (d.id.drop i) s = .ok ((ns.drop i).map .node) := by
  generalize hm : ns.length - i = m
  induction m generalizing i s with
  | zero =>
    have h1 : ns.drop i = [] := List.drop_eq_nil_of_le (by omega)
    have h2 : d.id.drop i = [] := List.drop_eq_nil_of_le (by omega)
    simp [h1, h2, readDenseGo]
  | succ m ih =>
    have hi : i < ns.length := by omega
    have hn : ns[i]? = some ns[i] := List.getElem?_eq_getElem hi
    generalize hnn : ns[i] = n at hn
    have hd : ns.drop i = n :: ns.drop (i + 1) := by rw [List.drop_eq_getElem_cons hi, hnn]
    have hii : i < d.id.length := by omega
    have hdi : d.id.drop i = d.id[i] :: d.id.drop (i + 1) := List.drop_eq_getElem_cons hii
    obtain ⟨p1, p2, p3, p4⟩ := hpos i n hn
    obtain ⟨q1, ⟨q2, q2'⟩, ⟨q3, q3'⟩, ⟨q4, q4'⟩, ⟨q5, q5'⟩, q6⟩ := hin i n hn
    obtain ⟨s1, s2, s3, s4, s5, s6, s7⟩ := hs
    have g64 : ∀ (l : List Int64) (h : i < l.length), l[i]? = some l[i] := fun l h => List.getElem?_eq_getElem h
    have g32 : ∀ (l : List Int32) (h : i < l.length), l[i]? = some l[i] := fun l h => List.getElem?_eq_getElem h
    have sum64 : ∀ (l : List Int64) (h : i < l.length), Int64.ofInt (before64 l i) + l[i] = Int64.ofInt (Format.sum64 l i) := by
      intro l h; rw [i64_ofInt_add, before64_succ (g64 l h)]
    have sum32 : ∀ (l : List Int32) (h : i < l.length), Int32.ofInt (before32 l i) + l[i] = Int32.ofInt (Format.sum32 l i) := by
      intro l h; rw [i32_ofInt_add, before32_succ (g32 l h)]
    have e1 : Int64.ofInt (Format.sum64 d.id i) = n.id := by rw [← hid i n hn, Int64.ofInt_toInt]
    have e2 : Int64.ofInt (Format.sum64 inf.timestamp i) * (p.date_granularity.getD 1000).toInt64 = n.timestamp := by
      rw [← Int64.ofInt_toInt n.timestamp, q2', Int64.ofInt_mul, Int64.mul_comm]
      congr 1
    have e3 : Int64.ofInt (Format.sum64 inf.changeset i) = n.changeset := by rw [← q3', Int64.ofInt_toInt]
    have e4 : Int32.ofInt (Format.sum32 inf.uid i) = n.uid := by rw [← q4', Int32.ofInt_toInt]
    have e5 := Entry.sum ht q5'
    have e6 : (inf.visible[i]?).getD true = n.visible := by
      rcases q6 with h | ⟨h, h'⟩ <;> simp [h]
      exact h'
    have e7 := decodeCoord_of (g := p.granularity.getD 100) (o := p.lat_offset.getD 0) rfl p3
    have e8 := decodeCoord_of (g := p.granularity.getD 100) (o := p.lon_offset.getD 0) rfl p4
    rw [hdi, hd]
    simp only [readDenseGo, g64 d.lat p1, g64 d.lon p2, Out.unwrap_some, Out.ok_bind, hinf, readDenseInfo, g64 _ q2, g64 _ q3, g32 _ q4,
      g32 _ q5, q1, s1, s2, s3, s4, s5, s6, s7, sum64 _ hii, sum64 _ p1, sum64 _ p2, sum64 _ q2, sum64 _ q3, sum32 _ q4, sum32 _ q5,
      e1, e2, e3, e4, e5, e6, e7, e8, hk, hkv i n hn]
    rw [ih (i + 1) _ ?_ rfl (by omega)]
    · simp
    · exact ⟨e1 ▸ rfl, rfl, rfl, rfl, e3 ▸ rfl, e4 ▸ rfl, rfl⟩

theorem readDense_of {p : Pb.PrimitiveBlock} {d : Pb.DenseNodes} {ns : List Node} (ht : TblOk (tblOf p)) (h : Format.Dense p d ns) :
    readDense (strs (tblOf p)) (p.granularity.getD 100).toInt64 (p.date_granularity.getD 1000) (p.lat_offset.getD 0)
      (p.lon_offset.getD 0) (some d) = .ok (ns.map .node) := by
  obtain ⟨h1, h2, h3, ⟨inf, hinf, h4⟩, h5⟩ := h
  have key : ∃ kvs : Nat → List Int32, kvs 0 = d.keys_vals ∧
      ∀ i n, ns[i]? = some n → readKeyVals (strs (tblOf p)) (kvs i) = .ok (n.tags, kvs (i + 1)) := by
    rcases h5 with ⟨h5, h6⟩ | ⟨parts, h5, h6⟩
    · refine ⟨fun _ => [], h5.symm, fun i n hn => ?_⟩
      rw [h6 n (List.mem_of_getElem? hn)]
      simp [readKeyVals]
    · refine ⟨fun i => (parts.drop i).flatMap (fun c => c ++ [0]), by simpa using h5.symm, fun i n hn => ?_⟩
      have hl := h6.length_eq
      have hi : i < ns.length := by
        rcases Nat.lt_or_ge i ns.length with h | h
        · exact h
        · simp [List.getElem?_eq_none h] at hn
      have hp : i < parts.length := by omega
      have hn' : ns[i] = n := by rw [List.getElem?_eq_getElem hi] at hn; exact Option.some.inj hn
      have hkv : Format.KeysVals p parts[i] n.tags := by
        have := List.Forall₂.get h6 hp hi
        simpa [hn'] using this
      simp only [List.drop_eq_getElem_cons hp, List.flatMap_cons, List.append_assoc, List.singleton_append]
      exact readKeyVals_of ht hkv _
  obtain ⟨kvs, k0, hkv⟩ := key
  have := readDenseGo_of ht hinf h1 h2 h3 h4 kvs hkv 0 (DenseState.init d)
    (by simp [DenseAt, DenseState.init, hinf, before64, before32]) (by simp [DenseState.init, k0])
  simpa [readDense] using this

/-! ### Plain nodes, ways, relations -/

theorem readNode_of {p : Pb.PrimitiveBlock} {m : Pb.Node} {n : Node} (ht : TblOk (tblOf p)) (h : Format.PlainNode p m n) :
    readNode (strs (tblOf p)) (p.granularity.getD 100).toInt64 (p.date_granularity.getD 1000) (p.lat_offset.getD 0)
      (p.lon_offset.getD 0) m = .ok (.node n) := by
  obtain ⟨h1, ⟨h2, h3⟩, ⟨inf, hi, h4⟩, h5⟩ := h
  have e1 := decodeCoord_of (g := p.granularity.getD 100) (o := p.lat_offset.getD 0) (Int64.ofInt_toInt m.lat).symm h2
  have e2 := decodeCoord_of (g := p.granularity.getD 100) (o := p.lon_offset.getD 0) (Int64.ofInt_toInt m.lon).symm h3
  simp [readNode, hi, readInfo_of ht h4, readTags_of ht h5, e1, e2, ← h1]

theorem undelta_of (ds : List Int64) (rs : List Int64) (hl : rs.length = ds.length)
    (h : ∀ (i : Nat) (r : Int64), rs[i]? = some r → r.toInt = Format.sum64 ds i) (i : Nat) :
    undelta (Int64.ofInt (before64 ds i)) (ds.drop i) = rs.drop i := by
  generalize hm : ds.length - i = m
  induction m generalizing i with
  | zero =>
    rw [List.drop_eq_nil_of_le (by omega), List.drop_eq_nil_of_le (by omega)]; rfl
  | succ m ih =>
    have hi : i < ds.length := by omega
    have hr : i < rs.length := by omega
    have e : Int64.ofInt (before64 ds i) + ds[i] = rs[i] := by
      rw [i64_ofInt_add, ← before64_succ (List.getElem?_eq_getElem hi), ← h i _ (List.getElem?_eq_getElem hr), Int64.ofInt_toInt]
    have e' : Int64.ofInt (before64 ds (i + 1)) = rs[i] := by
      show Int64.ofInt (Format.sum64 ds i) = rs[i]
      rw [← h i _ (List.getElem?_eq_getElem hr), Int64.ofInt_toInt]
    rw [List.drop_eq_getElem_cons hi, List.drop_eq_getElem_cons hr, undelta, e, ← ih (i + 1) (by omega), e']

theorem readWay_of {p : Pb.PrimitiveBlock} {m : Pb.Way} {w : Way} (ht : TblOk (tblOf p)) (h : Format.WayIs p m w) :
    readWay (strs (tblOf p)) (p.date_granularity.getD 1000) m = .ok (.way w) := by
  obtain ⟨h1, h2, h3, ⟨inf, hi, h4⟩, h5⟩ := h
  have e := undelta_of m.refs w.refs h2 h3 0
  simp [before64] at e
  simp [readWay, hi, readInfo_of ht h4, readTags_of ht h5, e, ← h1]

theorem mkMember_of (x : Member) : mkMember (Format.memberParts x).1 ⟨(Format.memberParts x).2.1, (Format.memberParts x).2.2⟩ = .ok x := by
  cases x <;> rfl

theorem readMembers_of {p : Pb.PrimitiveBlock} (ht : TblOk (tblOf p)) (ds : List Int64) (roles : List Int32) (ms : List Member)
    (hl : ds.length = ms.length)
    (hid : ∀ (i : Nat) (x : Member), ms[i]? = some x → (Format.memberParts x).2.1.toInt = Format.sum64 ds i)
    (hr : List.Forall₂ (fun k x => Format.Entry p k.toInt (Format.memberParts x).2.2) roles ms) (i : Nat) :
    readMembers (strs (tblOf p)) (Int64.ofInt (before64 ds i)) (ds.drop i) (roles.drop i)
      ((ms.map fun x => (Format.memberParts x).1).drop i) = .ok (ms.drop i) := by
  have hrl := hr.length_eq
  generalize hm : ds.length - i = m
  induction m generalizing i with
  | zero =>
    rw [List.drop_eq_nil_of_le (by omega), List.drop_eq_nil_of_le (as := ms) (by omega)]; rfl
  | succ m ih =>
    have hi : i < ds.length := by omega
    have hm' : i < ms.length := by omega
    have hr' : i < roles.length := by omega
    have hmg : ms[i]? = some ms[i] := List.getElem?_eq_getElem hm'
    have e : Int64.ofInt (before64 ds i) + ds[i] = (Format.memberParts ms[i]).2.1 := by
      rw [i64_ofInt_add, ← before64_succ (List.getElem?_eq_getElem hi), ← hid i _ hmg, Int64.ofInt_toInt]
    have e' : (Format.memberParts ms[i]).2.1 = Int64.ofInt (before64 ds (i + 1)) := by
      rw [← Int64.ofInt_toInt (Format.memberParts ms[i]).2.1, hid i _ hmg]; rfl
    have hen := Entry.i32 ht (by simpa using List.Forall₂.get hr hr' hm')
    have hdm : (ms.map fun x => (Format.memberParts x).1).drop i =
        (Format.memberParts ms[i]).1 :: (ms.map fun x => (Format.memberParts x).1).drop (i + 1) := by
      rw [List.drop_eq_getElem_cons (by simpa using hm')]; simp
    rw [List.drop_eq_getElem_cons hi, List.drop_eq_getElem_cons hr', hdm, List.drop_eq_getElem_cons hm']
    simp only [readMembers, e, hen, Out.ok_bind, mkMember_of]
    rw [e', ih (i + 1) (by omega)]
    rfl

theorem readRelation_of {p : Pb.PrimitiveBlock} {m : Pb.Relation} {r : Relation} (ht : TblOk (tblOf p)) (h : Format.RelationIs p m r) :
    readRelation (strs (tblOf p)) (p.date_granularity.getD 1000) m = .ok (.relation r) := by
  obtain ⟨h1, h2, h3, h4, h5, ⟨inf, hi, h6⟩, h7⟩ := h
  have e := readMembers_of ht m.memids m.roles_sid r.members h2 h4 h5 0
  simp [before64] at e
  simp [readRelation, hi, readInfo_of ht h6, readTags_of ht h7, h3, e, ← h1]

theorem mapM_of {α β γ : Type} {R : α → β → Prop} {f : α → Out γ} {g : β → γ} {as : List α} {bs : List β}
    (h : List.Forall₂ R as bs) (hf : ∀ a b, R a b → f a = .ok (g b)) : as.mapM f = .ok (bs.map g) := by
  induction h with
  | nil => rfl
  | cons h1 _ ih => simp [hf _ _ h1, ih]

theorem readGroup_of {p : Pb.PrimitiveBlock} {g : Pb.PrimitiveGroup} {es : List Element} (ht : TblOk (tblOf p)) (h : Format.Group p g es) :
    readGroup (strs (tblOf p)) (p.granularity.getD 100).toInt64 (p.date_granularity.getD 1000) (p.lat_offset.getD 0)
      (p.lon_offset.getD 0) g = .ok es := by
  obtain ⟨h1, dns, ns, ws, rs, rfl, h2, h3, h4, h5⟩ := h
  have e : readDense (strs (tblOf p)) (p.granularity.getD 100).toInt64 (p.date_granularity.getD 1000) (p.lat_offset.getD 0)
      (p.lon_offset.getD 0) g.dense = .ok (dns.map .node) := by
    cases hd : g.dense with
    | none => rw [hd] at h2; subst h2; rfl
    | some d => rw [hd] at h2; exact readDense_of ht h2
  simp only [readGroup, e, mapM_of h3 fun a b hab => readNode_of ht hab, mapM_of h4 fun a b hab => readWay_of ht hab,
    mapM_of h5 fun a b hab => readRelation_of ht hab, Out.ok_bind, h1, List.isEmpty_nil, if_true]

end OsmIo
