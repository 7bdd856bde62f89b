import Verif.Spec.Meaning
import Verif.Props.Complete
/-! # Reading any block according to what it says -/
namespace OsmIo
open Wire Spec
open Spec.Meaning (Each wrap64 wrap32)

theorem each_nil {α β : Type} {bs : List β} {P : Nat → α → β → Prop} : Each [] bs P ↔ bs = [] := by
  constructor
  · rintro ⟨h, -⟩; exact List.eq_nil_of_length_eq_zero (by simpa using h)
  · rintro rfl; exact ⟨rfl, by simp⟩

theorem each_cons {α β : Type} {a : α} {as : List α} {bs : List β} {P : Nat → α → β → Prop} :
    Each (a :: as) bs P ↔ ∃ b bs', bs = b :: bs' ∧ P 0 a b ∧ Each as bs' fun i => P (i + 1) := by
  constructor
  · rintro ⟨h, h'⟩
    cases bs with
    | nil => simp at h
    | cons b bs => exact ⟨b, bs, rfl, h' 0 a b rfl rfl, by simpa using h, fun i x y hx hy => h' (i + 1) x y (by simpa using hx) (by simpa using hy)⟩
  · rintro ⟨b, bs', rfl, h0, hl, h⟩
    refine ⟨by simp [hl], fun i x y hx hy => ?_⟩
    cases i with
    | zero => simp at hx hy; subst hx; subst hy; exact h0
    | succ i => exact h i x y (by simpa using hx) (by simpa using hy)

theorem unwrap_iff {α : Type} (o : Option α) (v : α) : Out.unwrap o = .ok v ↔ o = some v := by
  cases o <;> simp [Out.unwrap]

/-- The strings of the table. -/
def Tbl (p : Pb.PrimitiveBlock) (tbl : List String) : Prop := List.Forall₂ (fun b s => strOf b = some s) p.stringtable.s tbl

section
variable {p : Pb.PrimitiveBlock} {tbl : List String}

theorem strAt_iff (ht : Tbl p tbl) (n : Nat) (s : String) : strAt tbl n = .ok s ↔ Format.Entry p n s := by
  rw [strAt, unwrap_iff]
  have key : ∀ (bs : List Bytes) (tbl : List String), List.Forall₂ (fun b s => strOf b = some s) bs tbl → ∀ n : Nat,
      tbl[n]? = some s ↔ bs[n]? = some s.toByteArray.data.toList := by
    intro bs tbl h
    induction h with
    | nil => simp
    | cons h _ ih =>
      intro n
      cases n with
      | zero =>
        simp only [List.getElem?_cons_zero, Option.some.injEq]
        constructor
        · rintro rfl; exact ((strBytes_of_strOf h).symm :)
        · rintro rfl
          have := strOf_strBytes s
          rw [strBytes] at this
          rw [this] at h; simpa using h.symm
      | succ n => simpa using ih n
  rw [key _ _ ht]
  unfold Format.Entry
  constructor
  · intro h; exact ⟨n, rfl, h⟩
  · rintro ⟨m, h1, h2⟩
    have : n = m := by exact_mod_cast h1
    subst this; exact h2

theorem strAt32_iff (ht : Tbl p tbl) (hs : p.stringtable.s.length < 2 ^ 63) (i : Int32) (s : String) :
    strAt tbl (i32AsUsize i) = .ok s ↔ Format.Entry p i.toInt s := by
  rw [strAt_iff ht]
  rcases lt_or_ge i.toInt 0 with h | h
  · have := i32AsUsize_neg i h
    unfold Format.Entry
    constructor
    · rintro ⟨n, h1, h2⟩
      have hn : n < p.stringtable.s.length := by
        by_contra hc; rw [List.getElem?_eq_none (by omega)] at h2; cases h2
      omega
    · rintro ⟨n, h1, -⟩; omega
  · rw [i32AsUsize_nonneg i h]

theorem readTags_iff (ht : Tbl p tbl) (keys vals : List UInt32) (tags : List Tag) :
    readTags tbl keys vals = .ok tags ↔ Meaning.Tags p keys vals tags := by
  unfold Meaning.Tags
  induction keys generalizing vals tags with
  | nil => rw [each_nil]; simp [readTags, eq_comm]
  | cons k ks ih =>
    rw [each_cons]
    unfold readTags
    simp only [Out.bind_eq_ok, strAt_iff ht]
    constructor
    · rintro ⟨key, h1, h⟩
      cases vals with
      | nil => cases h
      | cons v vs =>
        simp only [Out.bind_eq_ok, strAt_iff ht, ih] at h
        obtain ⟨val, h2, rest, h3, h4⟩ := h
        injection h4 with h4; subst h4
        exact ⟨_, _, rfl, ⟨h1, v, rfl, h2⟩, by simpa using h3⟩
    · rintro ⟨t, ts, rfl, ⟨h1, v, h2, h3⟩, h4⟩
      cases vals with
      | nil => simp at h2
      | cons v' vs =>
        simp at h2; subst h2
        refine ⟨t.k, h1, ?_⟩
        simp only [Out.bind_eq_ok, strAt_iff ht, ih]
        exact ⟨t.v, h3, ts, by simpa using h4, rfl⟩

theorem timestamp_iff (dg : Int32) (t : Int64) : t * dg.toInt64 = wrap64 (dg.toInt * t.toInt) := by
  rw [wrap64, Int64.ofInt_mul, Int64.ofInt_toInt, Int64.mul_comm]
  congr 1

theorem readInfo_iff (ht : Tbl p tbl) (info : Option Pb.Info) (m : Meta) :
    readInfo tbl (p.date_granularity.getD 1000) info = .ok m ↔
      Meaning.Info p info m.version m.timestamp m.changeset m.uid m.user m.visible := by
  cases info with
  | none =>
    constructor
    · intro h
      simp only [readInfo, Out.ok.injEq] at h
      subst h
      exact ⟨fun _ => ⟨rfl, rfl, rfl, rfl, rfl, rfl⟩, by simp⟩
    · rintro ⟨h, -⟩
      obtain ⟨h1, h2, h3, h4, h5, h6⟩ := h rfl
      cases m
      simp_all [readInfo]
  | some inf =>
    constructor
    · intro h
      simp only [readInfo, Out.bind_eq_ok, strAt_iff ht] at h
      obtain ⟨user, h1, h2⟩ := h
      injection h2 with h2; subst h2
      refine ⟨by simp, fun _ e => ?_⟩
      injection e with e; subst e
      exact ⟨rfl, timestamp_iff _ _, rfl, rfl, h1, rfl⟩
    · rintro ⟨-, h⟩
      obtain ⟨h1, h2, h3, h4, h5, h6⟩ := h inf rfl
      simp only [readInfo, Out.bind_eq_ok, strAt_iff ht]
      refine ⟨m.user, h5, ?_⟩
      cases m
      simp only at h1 h2 h3 h4 h6
      rw [timestamp_iff, h1, h2, h3, h4, h6]; rfl

theorem sum64_zero (d : Int64) (ds : List Int64) : Format.sum64 (d :: ds) 0 = d.toInt := by simp [Format.sum64]
theorem sum64_succ (d : Int64) (ds : List Int64) (i : Nat) : Format.sum64 (d :: ds) (i + 1) = d.toInt + Format.sum64 ds i := by simp [Format.sum64]

theorem undelta_iff (c : ℤ) (ds rs : List Int64) :
    rs = undelta (Int64.ofInt c) ds ↔ Each ds rs fun i _ r => r = wrap64 (c + Format.sum64 ds i) := by
  induction ds generalizing c rs with
  | nil => rw [each_nil]; rfl
  | cons d ds ih =>
    rw [each_cons, undelta, i64_ofInt_add]
    simp only [sum64_zero, sum64_succ, ← add_assoc, ← ih]
    constructor
    · rintro rfl; exact ⟨_, _, rfl, rfl, rfl⟩
    · rintro ⟨_, _, rfl, rfl, rfl⟩; rfl

theorem mkMember_iff (t : Int32) (id : Int64) (role : String) (m : Member) :
    mkMember t ⟨id, role⟩ = .ok m ↔ Format.memberParts m = (t, id, role) := by
  constructor
  · unfold mkMember
    intro h
    split at h
    · injection h with h; subst h; simp [Format.memberParts, *]
    split at h
    · injection h with h; subst h; simp [Format.memberParts, *]
    split at h
    · injection h with h; subst h; simp [Format.memberParts, *]
    · cases h
  · intro h
    have := mkMember_of m
    rwa [h] at this

theorem readMembers_iff (ht : Tbl p tbl) (hs : p.stringtable.s.length < 2 ^ 63) (c : ℤ) (ids : List Int64) (roles types : List Int32) (ms : List Member) :
    readMembers tbl (Int64.ofInt c) ids roles types = .ok ms ↔ Each ids ms fun i _ x => types[i]? = some (Format.memberParts x).1 ∧
      (Format.memberParts x).2.1 = wrap64 (c + Format.sum64 ids i) ∧ ∃ k : Int32, roles[i]? = some k ∧ Format.Entry p k.toInt (Format.memberParts x).2.2 := by
  induction ids generalizing c roles types ms with
  | nil => rw [each_nil]; simp [readMembers, eq_comm]
  | cons d ds ih =>
    rw [each_cons]
    unfold readMembers
    dsimp only
    rw [i64_ofInt_add]
    simp only [sum64_zero, sum64_succ, ← add_assoc]
    constructor
    · intro h
      cases roles with
      | nil => cases h
      | cons r rs =>
        simp only [Out.bind_eq_ok, strAt32_iff ht hs] at h
        obtain ⟨role, h1, h⟩ := h
        cases types with
        | nil => cases h
        | cons t ts =>
          simp only [Out.bind_eq_ok, mkMember_iff, ih] at h
          obtain ⟨m, h2, rest, h3, h4⟩ := h
          injection h4 with h4; subst h4
          refine ⟨m, rest, rfl, ⟨by simp [h2], by rw [h2]; rfl, r, rfl, by rw [h2]; exact h1⟩, h3⟩
    · rintro ⟨m, rest, rfl, ⟨h1, h2, k, h3, h4⟩, h5⟩
      cases roles with
      | nil => simp at h3
      | cons r rs =>
        cases types with
        | nil => simp at h1
        | cons t ts =>
          simp only [List.getElem?_cons_zero, Option.some.injEq] at h1 h3
          subst h3
          simp only [Out.bind_eq_ok, strAt32_iff ht hs, mkMember_iff, ih]
          refine ⟨_, h4, m, ?_, rest, by simpa using h5, rfl⟩
          rw [h1, show Int64.ofInt (c + d.toInt) = _ from h2.symm]

/-! ## Dense nodes -/

theorem readKeyVals_flat (ht : Tbl p tbl) (hs : p.stringtable.s.length < 2 ^ 63) {pairs : List (Int32 × Int32)} {tags : List Tag}
    (h : Meaning.Pairs p pairs tags) (codes r : List Int32) (tags' : List Tag) (hr : readKeyVals tbl codes = .ok (tags', r)) :
    readKeyVals tbl (pairs.flatMap (fun kv => [kv.1, kv.2]) ++ codes) = .ok (tags ++ tags', r) := by
  induction h with
  | nil => exact hr
  | cons h _ ih =>
    obtain ⟨h0, h1, h2⟩ := h
    simp only [List.flatMap_cons, List.cons_append, List.nil_append, readKeyVals, if_neg h0, (strAt32_iff ht hs _ _).2 h1, (strAt32_iff ht hs _ _).2 h2, ih,
      Out.ok_bind]

theorem readKeyVals_parts (ht : Tbl p tbl) (hs : p.stringtable.s.length < 2 ^ 63) (codes : List Int32) (tags : List Tag) (r : List Int32)
    (h : readKeyVals tbl codes = .ok (tags, r)) :
    ∃ pairs, Meaning.Pairs p pairs tags ∧ (codes = pairs.flatMap (fun kv => [kv.1, kv.2]) ++ 0 :: r ∨ (codes = pairs.flatMap (fun kv => [kv.1, kv.2]) ∧ r = [])) := by
  fun_induction readKeyVals tbl codes generalizing tags with
  | case1 => cases h; exact ⟨[], .nil, .inr ⟨rfl, rfl⟩⟩
  | case2 rest => cases h; exact ⟨[], .nil, .inl rfl⟩
  | case3 k hk => cases h
  | case4 k hk v rest ih =>
    simp only [Out.bind_eq_ok, strAt32_iff ht hs, Prod.exists] at h
    obtain ⟨key, h1, val, h2, tags', r', h3, h4⟩ := h
    injection h4 with h4; injection h4 with h4 h5; subst h4; subst h5
    obtain ⟨pairs, hp, h⟩ := ih _ h3
    refine ⟨(k, v) :: pairs, .cons ⟨hk, h1, h2⟩ hp, ?_⟩
    rcases h with rfl | ⟨rfl, rfl⟩
    · exact .inl rfl
    · exact .inr ⟨rfl, rfl⟩

theorem denseTags_empty (more : List (List Tag)) : Meaning.DenseTags p [] more ↔ ∃ n, more = List.replicate n [] := by
  constructor
  · intro h
    generalize hc : ([] : List Int32) = codes at h
    cases h with
    | nil => exact ⟨0, rfl⟩
    | node _ _ => simp at hc
    | @last pairs tags n hp =>
      cases hp with
      | nil => exact ⟨n + 1, rfl⟩
      | cons _ _ => simp at hc
  · rintro ⟨n, rfl⟩
    cases n with
    | zero => exact .nil _
    | succ n => exact .last (pairs := []) n .nil

theorem denseTags_cons (ht : Tbl p tbl) (hs : p.stringtable.s.length < 2 ^ 63) (codes : List Int32) (tags : List Tag) (more : List (List Tag)) :
    Meaning.DenseTags p codes (tags :: more) ↔ ∃ r, readKeyVals tbl codes = .ok (tags, r) ∧ Meaning.DenseTags p r more := by
  constructor
  · intro h
    cases h with
    | @node pairs _ rest _ hp hm =>
      exact ⟨rest, by simpa using readKeyVals_flat ht hs hp (0 :: rest) rest [] (by rw [readKeyVals.eq_def]; rfl), hm⟩
    | last n hp =>
      exact ⟨[], by simpa using readKeyVals_flat ht hs hp [] [] [] rfl, (denseTags_empty _).2 ⟨n, rfl⟩⟩
  · rintro ⟨r, h, hm⟩
    obtain ⟨pairs, hp, rfl | ⟨rfl, rfl⟩⟩ := readKeyVals_parts ht hs codes tags r h
    · exact .node hp hm
    · obtain ⟨n, rfl⟩ := (denseTags_empty _).1 hm
      exact .last n hp

/-- The variables of the loop before node number `i`. -/
structure DenseVars (d : Pb.DenseNodes) (i : Nat) (s : DenseState) : Prop where
  id : s.last_id = Int64.ofInt (before64 d.id i)
  lat : s.last_lat = Int64.ofInt (before64 d.lat i)
  lon : s.last_lon = Int64.ofInt (before64 d.lon i)
  none : d.denseinfo = none → s.timestamp = 0 ∧ s.last_changeset = -1 ∧ s.uid = -1 ∧ s.visible = true
  some : ∀ inf, d.denseinfo = some inf → s.last_timestamp = Int64.ofInt (before64 inf.timestamp i) ∧
    s.last_changeset = Int64.ofInt (before64 inf.changeset i) ∧ s.uid = Int32.ofInt (before32 inf.uid i) ∧
    s.last_user_sid = Int32.ofInt (before32 inf.user_sid i)

theorem add64_at {ds : List Int64} {i : Nat} {d : Int64} (h : ds[i]? = some d) : Int64.ofInt (before64 ds i) + d = wrap64 (Format.sum64 ds i) := by
  rw [i64_ofInt_add, ← before64_succ h]; rfl
theorem add32_at {ds : List Int32} {i : Nat} {d : Int32} (h : ds[i]? = some d) : Int32.ofInt (before32 ds i) + d = wrap32 (Format.sum32 ds i) := by
  rw [i32_ofInt_add, ← before32_succ h]; rfl

theorem get_of_lt {α : Type} {l : List α} {i : Nat} (h : i < l.length) : ∃ a, l[i]? = some a := ⟨_, List.getElem?_eq_getElem h⟩
theorem lt_of_get {α : Type} {l : List α} {i : Nat} {a : α} (h : l[i]? = some a) : i < l.length := by
  by_contra hc; rw [List.getElem?_eq_none (by omega)] at h; cases h

theorem decodeCoord_degrees (g : Int32) (o v : Int64) (n : ℤ) (hv : v = Int64.ofInt n) :
    decodeCoord g.toInt64 o v = Meaning.degrees (o.toInt + g.toInt * n) := by
  subst hv
  unfold decodeCoord Meaning.degrees F64.div F64.ofI64
  have : o + g.toInt64 * Int64.ofInt n = wrap64 (o.toInt + g.toInt * n) := by
    rw [wrap64, Int64.ofInt_add, Int64.ofInt_mul, Int64.ofInt_toInt]
    congr 2
  rw [this]; norm_num

/-- One round of the loop. -/
theorem dense_step (ht : Tbl p tbl) (hs : p.stringtable.s.length < 2 ^ 63) (d : Pb.DenseNodes) (i : Nat) (s s' : DenseState)
    (hi : DenseVars d i s) (hid : s'.last_id = wrap64 (Format.sum64 d.id i)) (hla : s'.last_lat = wrap64 (Format.sum64 d.lat i))
    (hlo : s'.last_lon = wrap64 (Format.sum64 d.lon i))
    (hr : s' = { s with last_id := s'.last_id, last_lat := s'.last_lat, last_lon := s'.last_lon })
    (s'' : DenseState) (version : Int32) (user : String) (n : Node)
    (hn : n.version = version ∧ n.timestamp = s''.timestamp ∧ n.changeset = s''.last_changeset ∧ n.uid = s''.uid ∧ n.user = user ∧ n.visible = s''.visible)
    (h : readDenseInfo tbl (p.date_granularity.getD 1000) d.denseinfo i s' = .ok (s'', version, user)) :
    DenseVars d (i + 1) s'' ∧ s''.keyVals = s.keyVals ∧ Meaning.DenseInfo p d.denseinfo i n ∧ s''.last_id = s'.last_id ∧ s''.last_lat = s'.last_lat ∧
      s''.last_lon = s'.last_lon := by
  obtain ⟨n1, n2, n3, n4, n5, n6⟩ := hn
  cases hd : d.denseinfo with
  | none =>
    rw [hd] at h
    simp only [readDenseInfo, Out.ok.injEq, Prod.mk.injEq] at h
    obtain ⟨rfl, rfl, rfl⟩ := h
    obtain ⟨a1, a2, a3, a4⟩ := hi.none hd
    have e1 : s'.timestamp = s.timestamp := by rw [hr]
    have e2 : s'.last_changeset = s.last_changeset := by rw [hr]
    have e3 : s'.uid = s.uid := by rw [hr]
    have e4 : s'.visible = s.visible := by rw [hr]
    have e5 : s'.keyVals = s.keyVals := by rw [hr]
    exact ⟨⟨hid, hla, hlo, fun _ => ⟨e1.trans a1, e2.trans a2, e3.trans a3, e4.trans a4⟩, by simp [hd]⟩, e5,
      ⟨fun _ => ⟨n1, by rw [n2, e1, a1], by rw [n3, e2, a2], by rw [n4, e3, a3], n5, by rw [n6, e4, a4]⟩, by simp⟩, rfl, rfl, rfl⟩
  | some inf =>
    rw [hd] at h
    obtain ⟨a1, a2, a3, a4⟩ := hi.some inf hd
    have e1 : s'.last_timestamp = s.last_timestamp := by rw [hr]
    have e2 : s'.last_changeset = s.last_changeset := by rw [hr]
    have e3 : s'.uid = s.uid := by rw [hr]
    have e4 : s'.last_user_sid = s.last_user_sid := by rw [hr]
    have e5 : s'.keyVals = s.keyVals := by rw [hr]
    simp only [readDenseInfo, Out.bind_eq_ok, unwrap_iff, strAt32_iff ht hs] at h
    obtain ⟨dts, b1, dcs, b2, du, b3, ds, b4, v, b5, u, b6, h⟩ := h
    injection h with h
    simp only [Prod.mk.injEq] at h
    obtain ⟨rfl, rfl, rfl⟩ := h
    simp only at n2 n3 n4 n6
    have c1 : s'.last_timestamp + dts = wrap64 (Format.sum64 inf.timestamp i) := by rw [e1, a1, add64_at b1]
    have c2 : s'.last_changeset + dcs = wrap64 (Format.sum64 inf.changeset i) := by rw [e2, a2, add64_at b2]
    have c3 : s'.uid + du = wrap32 (Format.sum32 inf.uid i) := by rw [e3, a3, add32_at b3]
    have c4 : s'.last_user_sid + ds = wrap32 (Format.sum32 inf.user_sid i) := by rw [e4, a4, add32_at b4]
    refine ⟨⟨hid, hla, hlo, by simp [hd], fun inf' hd' => ?_⟩, e5, ⟨by simp, fun inf' hd' => ?_⟩, rfl, rfl, rfl⟩
    · rw [hd] at hd'; injection hd' with hd'; subst hd'
      exact ⟨c1, c2, c3, c4⟩
    · injection hd' with hd'; subst hd'
      refine ⟨by rw [n1]; exact b5, ⟨lt_of_get b1, ?_⟩, ⟨lt_of_get b2, by rw [n3]; exact c2⟩, ⟨lt_of_get b3, by rw [n4]; exact c3⟩, ⟨lt_of_get b4, ?_⟩, n6⟩
      · rw [n2, c1, timestamp_iff, wrap64, wrap64, wrap64, Int64.ofInt_mul, Int64.ofInt_toInt, ← Int64.ofInt_mul]; rfl
      · rw [n5, ← c4]; exact b6

theorem dense_info (ht : Tbl p tbl) (hs : p.stringtable.s.length < 2 ^ 63) (d : Pb.DenseNodes) (i : Nat) (s' : DenseState)
    (hu : ∀ inf, d.denseinfo = some inf → s'.last_user_sid = Int32.ofInt (before32 inf.user_sid i)) (n : Node)
    (h : Meaning.DenseInfo p d.denseinfo i n) :
    ∃ s'' version user, readDenseInfo tbl (p.date_granularity.getD 1000) d.denseinfo i s' = .ok (s'', version, user) := by
  cases hd : d.denseinfo with
  | none => exact ⟨_, _, _, rfl⟩
  | some inf =>
    obtain ⟨b5, ⟨b1, -⟩, ⟨b2, -⟩, ⟨b3, -⟩, ⟨b4, b6⟩, -⟩ := h.some inf hd
    obtain ⟨dts, b1⟩ := get_of_lt b1
    obtain ⟨dcs, b2⟩ := get_of_lt b2
    obtain ⟨du, b3⟩ := get_of_lt b3
    obtain ⟨ds, b4⟩ := get_of_lt b4
    have c4 : s'.last_user_sid + ds = wrap32 (Format.sum32 inf.user_sid i) := by rw [hu inf hd, add32_at b4]
    rw [← c4, ← strAt32_iff ht hs] at b6
    simp only [readDenseInfo, b1, b2, b3, b4, b5, b6, Out.unwrap, Out.ok_bind]
    exact ⟨_, _, _, rfl⟩

/-- What the node with number `i` is, its tags apart. -/
def NodeAt (p : Pb.PrimitiveBlock) (d : Pb.DenseNodes) (i : Nat) (n : Node) : Prop :=
  n.id = wrap64 (Format.sum64 d.id i) ∧
  (i < d.lat.length ∧ i < d.lon.length ∧ n.coordinate = Meaning.position p (Format.sum64 d.lat i) (Format.sum64 d.lon i)) ∧
  Meaning.DenseInfo p d.denseinfo i n

theorem denseInfo_unique {info : Option Pb.DenseInfo} {i : Nat} {n m : Node} (h : Meaning.DenseInfo p info i n) (h' : Meaning.DenseInfo p info i m) :
    n.version = m.version ∧ n.timestamp = m.timestamp ∧ n.changeset = m.changeset ∧ n.uid = m.uid ∧ n.user = m.user ∧ n.visible = m.visible := by
  cases info with
  | none =>
    obtain ⟨a1, a2, a3, a4, a5, a6⟩ := h.none rfl
    obtain ⟨b1, b2, b3, b4, b5, b6⟩ := h'.none rfl
    exact ⟨a1.trans b1.symm, a2.trans b2.symm, a3.trans b3.symm, a4.trans b4.symm, a5.trans b5.symm, a6.trans b6.symm⟩
  | some inf =>
    obtain ⟨a1, ⟨-, a2⟩, ⟨-, a3⟩, ⟨-, a4⟩, ⟨-, a5⟩, a6⟩ := h.some inf rfl
    obtain ⟨b1, ⟨-, b2⟩, ⟨-, b3⟩, ⟨-, b4⟩, ⟨-, b5⟩, b6⟩ := h'.some inf rfl
    refine ⟨?_, a2.trans b2.symm, a3.trans b3.symm, a4.trans b4.symm, ?_, a6.trans b6.symm⟩
    · rw [a1] at b1; simpa using b1
    · obtain ⟨k, hk, a⟩ := a5
      obtain ⟨k', hk', b⟩ := b5
      have : k = k' := by exact_mod_cast hk.symm.trans hk'
      subst this
      rw [a] at b
      have := congrArg strOf (Option.some.inj b)
      have e1 := strOf_strBytes n.user
      have e2 := strOf_strBytes m.user
      rw [strBytes] at e1 e2
      rw [e1, e2] at this
      exact Option.some.inj this

theorem readDenseGo_iff (ht : Tbl p tbl) (hs : p.stringtable.s.length < 2 ^ 63) (d : Pb.DenseNodes) (ids : List Int64) (i : Nat) (s : DenseState)
    (hids : d.id.drop i = ids) (hi : DenseVars d i s) (es : List Element) :
    readDenseGo tbl (p.granularity.getD 100).toInt64 (p.date_granularity.getD 1000) (p.lat_offset.getD 0) (p.lon_offset.getD 0) d i ids s = .ok es ↔
      ∃ ns : List Node, es = ns.map .node ∧ ns.length = ids.length ∧ (∀ j n, ns[j]? = some n → NodeAt p d (i + j) n) ∧ Meaning.DenseTags p s.keyVals (ns.map Node.tags) := by
  induction ids generalizing i s es with
  | nil =>
    simp only [readDenseGo, Out.ok.injEq]
    constructor
    · rintro rfl; exact ⟨[], rfl, rfl, by simp, .nil _⟩
    · rintro ⟨ns, rfl, h, -⟩
      have : ns = [] := List.eq_nil_of_length_eq_zero h
      rw [this]; rfl
  | cons id ids ih =>
    have hid : d.id[i]? = some id := by
      have := congrArg (fun l => l[0]?) hids
      simpa using this
    have hrest : d.id.drop (i + 1) = ids := by
      have := congrArg (List.drop 1) hids
      simpa [Nat.add_comm] using this
    unfold readDenseGo
    dsimp only
    constructor
    · intro h
      simp only [Out.bind_eq_ok, unwrap_iff, Prod.exists] at h
      obtain ⟨dlat, h1, dlon, h2, s', version, user, h3, tags, kv, h4, rest, h5, h6⟩ := h
      injection h6 with h6
      obtain ⟨k1, k2, k3, k4, k5, k6⟩ := dense_step ht hs d i s _ hi (by simp only; rw [hi.id, add64_at hid]) (by simp only; rw [hi.lat, add64_at h1])
        (by simp only; rw [hi.lon, add64_at h2]) rfl s' version user
        { id := s'.last_id, version
          coordinate := ⟨decodeCoord (p.granularity.getD 100).toInt64 (p.lat_offset.getD 0) s'.last_lat, decodeCoord (p.granularity.getD 100).toInt64 (p.lon_offset.getD 0) s'.last_lon⟩
          timestamp := s'.timestamp, changeset := s'.last_changeset, uid := s'.uid, user, visible := s'.visible, tags } ⟨rfl, rfl, rfl, rfl, rfl, rfl⟩ h3
      obtain ⟨ns, rfl, hl, hn, hd⟩ := (ih (i + 1) { s' with keyVals := kv } hrest ⟨k1.id, k1.lat, k1.lon, k1.none, k1.some⟩ rest).1 h5
      refine ⟨_ :: ns, by rw [← h6]; rfl, by simp [hl], ?_, (denseTags_cons ht hs _ _ _).2 ⟨kv, by rw [← k2]; exact h4, hd⟩⟩
      intro j n hj
      cases j with
      | zero =>
        simp only [List.getElem?_cons_zero, Option.some.injEq] at hj
        subst hj
        refine ⟨?_, ⟨lt_of_get h1, lt_of_get h2, ?_⟩, k3⟩
        · simp only; rw [k4, hi.id]; exact add64_at hid
        · simp only [Nat.add_zero, Meaning.position]
          rw [decodeCoord_degrees _ _ _ (Format.sum64 d.lat i) (by rw [k5, hi.lat]; exact add64_at h1),
            decodeCoord_degrees _ _ _ (Format.sum64 d.lon i) (by rw [k6, hi.lon]; exact add64_at h2)]
          rfl
      | succ j => rw [← Nat.add_assoc, Nat.add_right_comm]; exact hn j n (by simpa using hj)
    · rintro ⟨ns, rfl, hl, hn, hd⟩
      cases ns with
      | nil => simp at hl
      | cons n ns =>
        obtain ⟨a1, ⟨a2, a3, a4⟩, a5⟩ := hn 0 n rfl
        rw [Nat.add_zero] at a1 a2 a3 a4 a5
        obtain ⟨dlat, h1⟩ := get_of_lt a2
        obtain ⟨dlon, h2⟩ := get_of_lt a3
        obtain ⟨kv, h4, hd'⟩ := (denseTags_cons ht hs _ _ _).1 hd
        obtain ⟨s', version, user, h3⟩ := dense_info ht hs d i { s with last_id := s.last_id + id, last_lat := s.last_lat + dlat, last_lon := s.last_lon + dlon }
          (fun inf h => (hi.some inf h).2.2.2) n a5
        obtain ⟨k1, k2, k3, k4, k5, k6⟩ := dense_step ht hs d i s _ hi (by simp only; rw [hi.id, add64_at hid]) (by simp only; rw [hi.lat, add64_at h1])
          (by simp only; rw [hi.lon, add64_at h2]) rfl s' version user
          { id := s'.last_id, version
            coordinate := ⟨decodeCoord (p.granularity.getD 100).toInt64 (p.lat_offset.getD 0) s'.last_lat, decodeCoord (p.granularity.getD 100).toInt64 (p.lon_offset.getD 0) s'.last_lon⟩
            timestamp := s'.timestamp, changeset := s'.last_changeset, uid := s'.uid, user, visible := s'.visible, tags := n.tags } ⟨rfl, rfl, rfl, rfl, rfl, rfl⟩ h3
        simp only [Out.bind_eq_ok, unwrap_iff, Prod.exists]
        refine ⟨dlat, h1, dlon, h2, s', version, user, h3, n.tags, kv, by rw [k2]; exact h4, ns.map .node, ?_, ?_⟩
        · refine (ih (i + 1) { s' with keyVals := kv } hrest ⟨k1.id, k1.lat, k1.lon, k1.none, k1.some⟩ _).2 ⟨ns, rfl, by simpa using hl, fun j m hj => ?_, hd'⟩
          have := hn (j + 1) m (by simpa using hj)
          rwa [← Nat.add_assoc, Nat.add_right_comm] at this
        · obtain ⟨u1, u2, u3, u4, u5, u6⟩ := denseInfo_unique k3 a5
          simp only at u1 u2 u3 u4 u5 u6
          have hid' : s'.last_id = n.id := by rw [k4, a1, hi.id]; exact add64_at hid
          have hc : (⟨decodeCoord (p.granularity.getD 100).toInt64 (p.lat_offset.getD 0) s'.last_lat, decodeCoord (p.granularity.getD 100).toInt64 (p.lon_offset.getD 0) s'.last_lon⟩ : Coordinate) = n.coordinate := by
            rw [a4, Meaning.position, decodeCoord_degrees _ _ _ (Format.sum64 d.lat i) (by rw [k5, hi.lat]; exact add64_at h1),
              decodeCoord_degrees _ _ _ (Format.sum64 d.lon i) (by rw [k6, hi.lon]; exact add64_at h2)]
            rfl
          rw [hid', hc, u1, u2, u3, u4, u5, u6]
          rfl

theorem mapM_iff {α β : Type} {f : α → Out β} {Q : α → β → Prop} (as : List α) (bs : List β) (h : ∀ a b, f a = .ok b ↔ Q a b) :
    as.mapM f = .ok bs ↔ List.Forall₂ Q as bs := by
  induction as generalizing bs with
  | nil =>
    rw [List.mapM_nil]
    show Out.ok [] = Out.ok bs ↔ _
    constructor
    · intro h; injection h with h; subst h; exact .nil
    · intro h; cases h; rfl
  | cons a as ih =>
    rw [List.mapM_cons]
    simp only [Out.bind_eq_ok, h, ih]
    constructor
    · rintro ⟨b, hb, bs', hbs, e⟩
      have e : Out.ok (b :: bs') = Out.ok bs := e
      injection e with e; subst e
      exact .cons hb hbs
    · intro h
      cases h with
      | cons hb hbs => exact ⟨_, hb, _, hbs, rfl⟩

theorem forall₂_map {α β γ : Type} {Q : α → β → Prop} {f : β → γ} (as : List α) (cs : List γ) :
    List.Forall₂ (fun a c => ∃ b, c = f b ∧ Q a b) as cs ↔ ∃ bs, cs = bs.map f ∧ List.Forall₂ Q as bs := by
  constructor
  · intro h
    induction h with
    | nil => exact ⟨[], rfl, .nil⟩
    | cons h _ ih =>
      obtain ⟨b, rfl, hb⟩ := h
      obtain ⟨bs, rfl, hbs⟩ := ih
      exact ⟨b :: bs, rfl, .cons hb hbs⟩
  · rintro ⟨bs, rfl, h⟩
    induction h with
    | nil => exact .nil
    | cons h _ ih => exact .cons ⟨_, rfl, h⟩ ih

theorem readDense_iff (ht : Tbl p tbl) (hs : p.stringtable.s.length < 2 ^ 63) (dense : Option Pb.DenseNodes) (es : List Element) :
    readDense tbl (p.granularity.getD 100).toInt64 (p.date_granularity.getD 1000) (p.lat_offset.getD 0) (p.lon_offset.getD 0) dense = .ok es ↔
      ∃ ns : List Node, es = ns.map .node ∧ (dense = none → ns = []) ∧ ∀ d, dense = some d → Meaning.Dense p d ns := by
  cases dense with
  | none =>
    simp only [readDense, Out.ok.injEq]
    constructor
    · rintro rfl; exact ⟨[], rfl, fun _ => rfl, by simp⟩
    · rintro ⟨ns, rfl, h, -⟩; rw [h trivial]; rfl
  | some d =>
    rw [readDense, readDenseGo_iff ht hs d d.id 0 (DenseState.init d) rfl]
    · simp only [Nat.zero_add]
      constructor
      · rintro ⟨ns, rfl, h1, h2, h3⟩
        refine ⟨ns, rfl, (nomatch ·), fun d' e => ?_⟩
        injection e with e; subst e
        exact ⟨h1, fun i n h => (h2 i n h).1, fun i n h => (h2 i n h).2.1, fun i n h => (h2 i n h).2.2, h3⟩
      · rintro ⟨ns, rfl, -, h⟩
        obtain ⟨h1, h2, h3, h4, h5⟩ := h d rfl
        exact ⟨ns, rfl, h1, fun j n hj => ⟨h2 j n hj, h3 j n hj, h4 j n hj⟩, h5⟩
    · refine ⟨rfl, rfl, rfl, fun h => ?_, fun inf h => ?_⟩
      · simp [DenseState.init, h]
      · simp [DenseState.init, h, before64, before32]

theorem readNode_iff (ht : Tbl p tbl) (m : Pb.Node) (e : Element) :
    readNode tbl (p.granularity.getD 100).toInt64 (p.date_granularity.getD 1000) (p.lat_offset.getD 0) (p.lon_offset.getD 0) m = .ok e ↔
      ∃ n, e = .node n ∧ Meaning.PlainNode p m n := by
  have hc : (⟨decodeCoord (p.granularity.getD 100).toInt64 (p.lat_offset.getD 0) m.lat, decodeCoord (p.granularity.getD 100).toInt64 (p.lon_offset.getD 0) m.lon⟩ :
      Coordinate) = Meaning.position p m.lat.toInt m.lon.toInt := by
    rw [decodeCoord_degrees _ _ _ _ (Int64.ofInt_toInt m.lat).symm, decodeCoord_degrees _ _ _ _ (Int64.ofInt_toInt m.lon).symm]; rfl
  simp only [readNode, Out.bind_eq_ok, readInfo_iff ht, readTags_iff ht, hc]
  constructor
  · rintro ⟨i, h1, tags, h2, h⟩
    injection h with h; subst h
    exact ⟨_, rfl, rfl, rfl, h1, h2⟩
  · rintro ⟨n, rfl, h1, h2, h3, h4⟩
    refine ⟨⟨n.timestamp, n.changeset, n.uid, n.user, n.visible, n.version⟩, h3, n.tags, h4, ?_⟩
    rw [← h1, ← h2]

theorem readWay_iff (ht : Tbl p tbl) (m : Pb.Way) (e : Element) :
    readWay tbl (p.date_granularity.getD 1000) m = .ok e ↔ ∃ n, e = .way n ∧ Meaning.WayIs p m n := by
  have hu := fun rs => undelta_iff 0 m.refs rs
  simp only [Int.zero_add] at hu
  simp only [readWay, Out.bind_eq_ok, readInfo_iff ht, readTags_iff ht]
  constructor
  · rintro ⟨i, h1, tags, h2, h⟩
    injection h with h; subst h
    exact ⟨_, rfl, rfl, (hu _).1 rfl, h1, h2⟩
  · rintro ⟨n, rfl, h1, h2, h3, h4⟩
    refine ⟨⟨n.timestamp, n.changeset, n.uid, n.user, n.visible, n.version⟩, h3, n.tags, h4, ?_⟩
    rw [← h1, show undelta 0 m.refs = n.refs from ((hu _).2 h2).symm]

theorem readRelation_iff (ht : Tbl p tbl) (hs : p.stringtable.s.length < 2 ^ 63) (m : Pb.Relation) (e : Element) :
    readRelation tbl (p.date_granularity.getD 1000) m = .ok e ↔ ∃ n, e = .relation n ∧ Meaning.RelationIs p m n := by
  have hu := fun ms => readMembers_iff ht hs 0 m.memids m.roles_sid m.types ms
  simp only [Int.zero_add] at hu
  have hu : ∀ ms, readMembers tbl 0 m.memids m.roles_sid m.types = .ok ms ↔ _ := hu
  simp only [readRelation, Out.bind_eq_ok, readInfo_iff ht, readTags_iff ht, hu]
  constructor
  · rintro ⟨i, h1, ms, h2, tags, h3, h⟩
    injection h with h; subst h
    exact ⟨_, rfl, rfl, h2, h1, h3⟩
  · rintro ⟨n, rfl, h1, h2, h3, h4⟩
    refine ⟨⟨n.timestamp, n.changeset, n.uid, n.user, n.visible, n.version⟩, h3, n.members, h2, n.tags, h4, ?_⟩
    rw [← h1]

theorem readGroup_iff (ht : Tbl p tbl) (hs : p.stringtable.s.length < 2 ^ 63) (g : Pb.PrimitiveGroup) (es : List Element) :
    readGroup tbl (p.granularity.getD 100).toInt64 (p.date_granularity.getD 1000) (p.lat_offset.getD 0) (p.lon_offset.getD 0) g = .ok es ↔
      Meaning.Group p g es := by
  simp only [readGroup, Out.bind_eq_ok, readDense_iff ht hs, mapM_iff _ _ (readNode_iff ht), mapM_iff _ _ (readWay_iff ht),
    mapM_iff _ _ (readRelation_iff ht hs), forall₂_map, Meaning.Group]
  constructor
  · rintro ⟨_, ⟨dns, rfl, h0, h1⟩, _, ⟨ns, rfl, h2⟩, _, ⟨ws, rfl, h3⟩, _, ⟨rs, rfl, h4⟩, h⟩
    split at h
    · next hc =>
      injection h with h; subst h
      exact ⟨List.isEmpty_iff.1 hc, dns, ns, ws, rs, rfl, h0, h1, h2, h3, h4⟩
    · cases h
  · rintro ⟨hc, dns, ns, ws, rs, rfl, h0, h1, h2, h3, h4⟩
    exact ⟨_, ⟨dns, rfl, h0, h1⟩, _, ⟨ns, rfl, h2⟩, _, ⟨ws, rfl, h3⟩, _, ⟨rs, rfl, h4⟩, by rw [hc]; rfl⟩

end

theorem fromPrimitiveBlock_iff (p : Pb.PrimitiveBlock) (hs : p.stringtable.s.length < 2 ^ 63) (es : List Element) :
    fromPrimitiveBlock p = .ok es ↔ Meaning.Block p es := by
  unfold fromPrimitiveBlock Meaning.Block
  dsimp only
  simp only [Out.bind_eq_ok, mapM_iff _ _ (fun b s => unwrap_iff (strOf b) s)]
  constructor
  · rintro ⟨tbl, ht, gs, h1, h2⟩
    injection h2 with h2; subst h2
    refine ⟨fun b hb => ?_, gs, rfl, (mapM_iff _ _ (readGroup_iff ht hs)).1 h1⟩
    have : ∃ s, strOf b = some s := by
      clear h1
      generalize p.stringtable.s = bs at ht hb
      induction ht with
      | nil => simp at hb
      | cons h _ ih =>
        simp at hb
        rcases hb with rfl | hb
        · exact ⟨_, h⟩
        · exact ih hb
    obtain ⟨s, h⟩ := this
    exact ⟨s, (strBytes_of_strOf h).symm⟩
  · rintro ⟨h0, gs, rfl, h1⟩
    have : ∃ tbl, Tbl p tbl := by
      unfold Tbl
      clear h1 hs
      generalize p.stringtable.s = bs at h0
      induction bs with
      | nil => exact ⟨[], .nil⟩
      | cons b bs ih =>
        obtain ⟨tbl, ht⟩ := ih fun b hb => h0 b (by simp [hb])
        obtain ⟨s, rfl⟩ := h0 b (by simp)
        exact ⟨s :: tbl, .cons (strOf_strBytes s) ht⟩
    obtain ⟨tbl, ht⟩ := this
    exact ⟨tbl, ht, gs, (mapM_iff _ _ (readGroup_iff ht hs)).2 h1, rfl⟩

end OsmIo
