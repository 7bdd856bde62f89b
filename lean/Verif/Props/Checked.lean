import Verif.Spec.Checked
import Verif.Model.Checked
import Verif.Props.Complete
import Verif.Lemmas.FormatWrite
/-!
# C85: builds with and without overflow checks
-/
namespace OsmIo
open Wire Spec Spec.Protobuf Spec.Format

/-! ## One step of arithmetic -/

theorem fits64_iff (n : ℤ) : fits64 n = true ↔ Fits64 n := by simp [fits64, Fits64]
theorem fits32_iff (n : ℤ) : fits32 n = true ↔ Fits32 n := by simp [fits32, Fits32]

theorem add64_toInt {a b : Int64} (h : Fits64 (a.toInt + b.toInt)) : (a + b).toInt = a.toInt + b.toInt := by
  unfold Fits64 at h
  rw [Int64.toInt_add]; apply Int.bmod_eq_of_le <;> omega

theorem mul64_toInt {a b : Int64} (h : Fits64 (a.toInt * b.toInt)) : (a * b).toInt = a.toInt * b.toInt := by
  unfold Fits64 at h
  rw [Int64.toInt_mul]; apply Int.bmod_eq_of_le <;> omega

theorem add32_toInt {a b : Int32} (h : Fits32 (a.toInt + b.toInt)) : (a + b).toInt = a.toInt + b.toInt := by
  unfold Fits32 at h
  rw [Int32.toInt_add]; apply Int.bmod_eq_of_le <;> omega

theorem add64_decides (a b : Int64) : Decides (add64 a b) (Fits64 (a.toInt + b.toInt)) fun c => c = a + b ∧ c.toInt = a.toInt + b.toInt := by
  unfold add64
  split
  · next h => rw [fits64_iff] at h; exact .ok h ⟨rfl, add64_toInt h⟩
  · next h => rw [fits64_iff] at h; exact .inr ⟨h, rfl⟩

theorem mul64_decides (a b : Int64) : Decides (mul64 a b) (Fits64 (a.toInt * b.toInt)) fun c => c = a * b ∧ c.toInt = a.toInt * b.toInt := by
  unfold mul64
  split
  · next h => rw [fits64_iff] at h; exact .ok h ⟨rfl, mul64_toInt h⟩
  · next h => rw [fits64_iff] at h; exact .inr ⟨h, rfl⟩

theorem add32_decides (a b : Int32) : Decides (add32 a b) (Fits32 (a.toInt + b.toInt)) fun c => c = a + b ∧ c.toInt = a.toInt + b.toInt := by
  unfold add32
  split
  · next h => rw [fits32_iff] at h; exact .ok h ⟨rfl, add32_toInt h⟩
  · next h => rw [fits32_iff] at h; exact .inr ⟨h, rfl⟩

/-! ## The checked computation gives the same or panics -/

/-- The same outcome, or a panic. -/
def SameOrPanic {α : Type} (x y : Out α) : Prop := x = y ∨ x = .panic

theorem SameOrPanic.refl {α : Type} (x : Out α) : SameOrPanic x x := .inl rfl

theorem SameOrPanic.bind {α β : Type} {x y : Out α} {f g : α → Out β} (h : SameOrPanic x y) (hf : ∀ v, SameOrPanic (f v) (g v)) :
    SameOrPanic (x >>= f) (y >>= g) := by
  rcases h with rfl | rfl
  · cases x with
    | ok v => exact hf v
    | err => exact .inl rfl
    | panic => exact .inl rfl
  · exact .inr rfl

/-- A step that computes `v` or panics, where the other computation goes on with `v` at once. -/
theorem SameOrPanic.step {α β : Type} {x : Out α} {v : α} {f : α → Out β} {y : Out β} (h : SameOrPanic x (.ok v)) (hf : SameOrPanic (f v) y) :
    SameOrPanic (x >>= f) y := by
  rcases h with rfl | rfl
  · exact hf
  · exact .inr rfl

theorem SameOrPanic.mapM {α β : Type} {f g : α → Out β} (h : ∀ a, SameOrPanic (f a) (g a)) (as : List α) : SameOrPanic (as.mapM f) (as.mapM g) := by
  induction as with
  | nil => exact .refl _
  | cons a as ih =>
    rw [List.mapM_cons, List.mapM_cons]
    exact (h a).bind fun v => ih.bind fun vs => .refl _

theorem add64_same (a b : Int64) : SameOrPanic (add64 a b) (.ok (a + b)) := by unfold add64 SameOrPanic; split <;> simp
theorem sub64_same (a b : Int64) : SameOrPanic (sub64 a b) (.ok (a - b)) := by unfold sub64 SameOrPanic; split <;> simp
theorem mul64_same (a b : Int64) : SameOrPanic (mul64 a b) (.ok (a * b)) := by unfold mul64 SameOrPanic; split <;> simp
theorem add32_same (a b : Int32) : SameOrPanic (add32 a b) (.ok (a + b)) := by unfold add32 SameOrPanic; split <;> simp
theorem sub32_same (a b : Int32) : SameOrPanic (sub32 a b) (.ok (a - b)) := by unfold sub32 SameOrPanic; split <;> simp

theorem decodeCoord_same (g o v : Int64) : SameOrPanic (decodeCoordChecked g o v) (.ok (decodeCoord g o v)) :=
  (mul64_same g v).step ((add64_same o _).step (.refl _))

theorem readInfo_same (tbl : List String) (dg : Int32) (info : Option Pb.Info) : SameOrPanic (readInfoChecked tbl dg info) (readInfo tbl dg info) := by
  cases info with
  | none => exact .refl _
  | some info =>
    unfold readInfoChecked readInfo
    exact (mul64_same _ _).step (.refl _)

theorem undelta_same (last : Int64) (ds : List Int64) : SameOrPanic (undeltaChecked last ds) (.ok (undelta last ds)) := by
  induction ds generalizing last with
  | nil => exact .refl _
  | cons d ds ih => exact (add64_same last d).step ((ih _).step (.refl _))

theorem readNode_same (tbl : List String) (g : Int64) (dg : Int32) (la lo : Int64) (n : Pb.Node) :
    SameOrPanic (readNodeChecked tbl g dg la lo n) (readNode tbl g dg la lo n) := by
  unfold readNodeChecked readNode
  exact (decodeCoord_same g la n.lat).step ((decodeCoord_same g lo n.lon).step ((readInfo_same _ _ _).bind fun m => .refl _))

theorem readWay_same (tbl : List String) (dg : Int32) (w : Pb.Way) : SameOrPanic (readWayChecked tbl dg w) (readWay tbl dg w) := by
  unfold readWayChecked readWay
  exact (readInfo_same _ _ _).bind fun m => (undelta_same _ _).step (.refl _)

theorem readMembers_same (tbl : List String) (last : Int64) (ids : List Int64) (roles types : List Int32) :
    SameOrPanic (readMembersChecked tbl last ids roles types) (readMembers tbl last ids roles types) := by
  induction ids generalizing last roles types with
  | nil => exact .refl _
  | cons d ds ih =>
    unfold readMembersChecked readMembers
    refine (add64_same last d).step ?_
    cases roles with
    | nil => exact .refl _
    | cons r rs =>
      refine (SameOrPanic.refl _).bind fun role => ?_
      cases types with
      | nil => exact .refl _
      | cons t ts => exact (SameOrPanic.refl _).bind fun m => (ih _ _ _).bind fun _ => .refl _

theorem readRelation_same (tbl : List String) (dg : Int32) (r : Pb.Relation) : SameOrPanic (readRelationChecked tbl dg r) (readRelation tbl dg r) := by
  unfold readRelationChecked readRelation
  exact (readInfo_same _ _ _).bind fun m => (readMembers_same _ _ _ _ _).bind fun _ => .refl _

theorem readDenseInfo_same (tbl : List String) (dg : Int32) (info : Option Pb.DenseInfo) (i : Nat) (s : DenseState) :
    SameOrPanic (readDenseInfoChecked tbl dg info i s) (readDenseInfo tbl dg info i s) := by
  cases info with
  | none => exact .refl _
  | some info =>
    unfold readDenseInfoChecked readDenseInfo
    refine (SameOrPanic.refl _).bind fun dts => (add64_same _ _).step ((mul64_same _ _).step ?_)
    refine (SameOrPanic.refl _).bind fun dcs => (add64_same _ _).step ?_
    refine (SameOrPanic.refl _).bind fun duid => (add32_same _ _).step ?_
    exact (SameOrPanic.refl _).bind fun dsid => (add32_same _ _).step (.refl _)

theorem readDenseGo_same (tbl : List String) (g : Int64) (dg : Int32) (la lo : Int64) (d : Pb.DenseNodes) (i : Nat) (ids : List Int64) (s : DenseState) :
    SameOrPanic (readDenseGoChecked tbl g dg la lo d i ids s) (readDenseGo tbl g dg la lo d i ids s) := by
  induction ids generalizing i s with
  | nil => exact .refl _
  | cons id ids ih =>
    unfold readDenseGoChecked readDenseGo
    refine (add64_same _ _).step ?_
    refine (SameOrPanic.refl _).bind fun dlat => (add64_same _ _).step ?_
    refine (SameOrPanic.refl _).bind fun dlon => (add64_same _ _).step ?_
    refine (readDenseInfo_same _ _ _ _ _).bind fun r => ?_
    obtain ⟨s', version, user⟩ := r
    refine (SameOrPanic.refl _).bind fun kv => ?_
    obtain ⟨tags, kv⟩ := kv
    refine (decodeCoord_same _ _ _).step ((decodeCoord_same _ _ _).step ?_)
    exact (ih _ _).bind fun _ => .refl _

theorem readGroup_same (tbl : List String) (g : Int64) (dg : Int32) (la lo : Int64) (gr : Pb.PrimitiveGroup) :
    SameOrPanic (readGroupChecked tbl g dg la lo gr) (readGroup tbl g dg la lo gr) := by
  unfold readGroupChecked readGroup
  have hd : SameOrPanic (readDenseChecked tbl g dg la lo gr.dense) (readDense tbl g dg la lo gr.dense) := by
    cases gr.dense with
    | none => exact .refl _
    | some d => exact readDenseGo_same _ _ _ _ _ _ _ _ _
  exact hd.bind fun a => (SameOrPanic.mapM (readNode_same _ _ _ _ _) _).bind fun b => (SameOrPanic.mapM (readWay_same _ _) _).bind fun c =>
    (SameOrPanic.mapM (readRelation_same _ _) _).bind fun d => .refl _

/-- C85. Whatever bytes a block has, a build with overflow checks reads from it what a build without reads, or panics. -/
theorem C85_read_same (data : Bytes) : parseDataChecked data = parseData data ∨ parseDataChecked data = .panic := by
  show SameOrPanic _ _
  unfold parseDataChecked parseData
  cases Pb.PrimitiveBlock.decode data with
  | none => exact .refl _
  | some p =>
    unfold fromPrimitiveBlock
    exact (SameOrPanic.refl _).bind fun tbl => (SameOrPanic.mapM (readGroup_same _ _ _ _ _) _).bind fun _ => .refl _

/-! ## When it panics -/

section
variable {p : Pb.PrimitiveBlock} {tbl : List String}

theorem dateGranularity_eq (p : Pb.PrimitiveBlock) : (p.date_granularity.getD 1000).toInt64.toInt = dateGranularity p := by
  rw [Int32.toInt_toInt64, dateGranularity]
theorem granularity_eq (p : Pb.PrimitiveBlock) : (p.granularity.getD 100).toInt64.toInt = granularity p := by
  rw [Int32.toInt_toInt64, granularity]

theorem decodeCoord_decides (o v : Int64) (g : Int64) (hg : g.toInt = granularity p) :
    Decides (decodeCoordChecked g o v) (FitsCoordinate p o.toInt v.toInt) fun _ => True := by
  unfold decodeCoordChecked FitsCoordinate
  rw [← hg]
  refine (mul64_decides g v).bind (fun m hm _ _ => ?_) Iff.rfl
  rw [← hm.2]
  exact (add64_decides o m).bind (D := True) (fun _ _ _ _ => .ok trivial trivial) (by simp)

theorem readInfoChecked_decides (hl : tbl.length = p.stringtable.s.length) (info : Option Pb.Info) :
    Decides (readInfoChecked tbl (p.date_granularity.getD 1000) info) (CompleteInfo p info ∧ FitsInfo p info) fun _ => True := by
  cases info with
  | none => exact .ok (by simp [CompleteInfo, FitsInfo]) trivial
  | some info =>
    unfold readInfoChecked
    refine (mul64_decides _ _).bind (D := CompleteInfo p (some info)) (fun _ _ _ _ => ?_) (by simp [FitsInfo, dateGranularity_eq]; tauto)
    exact (strAt_decides (p := p) _ hl).bind (D := True) (fun _ _ _ _ => .ok trivial trivial) (by simp [CompleteInfo])

theorem undelta_decides (last : Int64) (pre ds : List Int64) (h : last.toInt = (pre.map Int64.toInt).sum) :
    Decides (undeltaChecked last ds) (∀ i, pre.length ≤ i → i < pre.length + ds.length → Fits64 (sum64 (pre ++ ds) i)) fun _ => True := by
  induction ds generalizing last pre with
  | nil => exact .ok (fun i h1 h2 => by simp at h2; omega) trivial
  | cons d ds ih =>
    unfold undeltaChecked
    have e : last.toInt + d.toInt = sum64 (pre ++ d :: ds) pre.length := by
      simp [sum64, h, List.take_append, List.take_of_length_le (Nat.le_succ _)]
    refine (add64_decides last d).bind (D := ∀ i, (pre ++ [d]).length ≤ i → i < (pre ++ [d]).length + ds.length → Fits64 (sum64 (pre ++ [d] ++ ds) i))
      (fun r hr _ _ => ?_) ?_
    · exact (ih r (pre ++ [d]) (by rw [hr.2, h]; simp)).bind (D := True) (fun _ _ _ _ => .ok trivial trivial) (by simp)
    · rw [e]
      simp only [List.append_assoc, List.singleton_append, List.length_append, List.length_cons, List.length_nil]
      constructor
      · exact fun h => ⟨h _ le_rfl (by omega), fun i h1 h2 => h i (by omega) (by omega)⟩
      · rintro ⟨h1, h2⟩ i h3 h4
        rcases Nat.eq_or_lt_of_le h3 with rfl | h5
        · exact h1
        · exact h2 i (by omega) (by omega)

theorem undelta0_decides (ds : List Int64) : Decides (undeltaChecked 0 ds) (FitsColumn ds) fun _ => True :=
  (undelta_decides 0 [] ds rfl).congr (by simp [FitsColumn])

theorem readMembersChecked_decides (hl : tbl.length = p.stringtable.s.length) (hs : p.stringtable.s.length < 2 ^ 63) (last : Int64) (pre ids : List Int64)
    (h : last.toInt = (pre.map Int64.toInt).sum) (roles types : List Int32) :
    Decides (readMembersChecked tbl last ids roles types) (CompleteMembers p ids roles types ∧
      ∀ i, pre.length ≤ i → i < pre.length + ids.length → Fits64 (sum64 (pre ++ ids) i)) fun _ => True := by
  induction ids generalizing last pre roles types with
  | nil => exact .ok ⟨by simp [CompleteMembers], fun i h1 h2 => by simp at h2; omega⟩ trivial
  | cons d ds ih =>
    have e : last.toInt + d.toInt = sum64 (pre ++ d :: ds) pre.length := by
      simp [sum64, h, List.take_append, List.take_of_length_le (Nat.le_succ _)]
    have eF : (∀ i, pre.length ≤ i → i < pre.length + (d :: ds).length → Fits64 (sum64 (pre ++ d :: ds) i)) ↔ Fits64 (last.toInt + d.toInt) ∧
        ∀ i, (pre ++ [d]).length ≤ i → i < (pre ++ [d]).length + ds.length → Fits64 (sum64 (pre ++ [d] ++ ds) i) := by
      rw [e]
      simp only [List.append_assoc, List.singleton_append, List.length_append, List.length_cons, List.length_nil]
      constructor
      · exact fun h => ⟨h _ le_rfl (by omega), fun i h1 h2 => h i (by omega) (by omega)⟩
      · rintro ⟨h1, h2⟩ i h3 h4
        rcases Nat.eq_or_lt_of_le h3 with rfl | h5
        · exact h1
        · exact h2 i (by omega) (by omega)
    have eC := completeMembers_cons (p := p) d ds roles types
    rw [eF]
    have ih := fun (r : Int64) (hr : r.toInt = last.toInt + d.toInt) => ih r (pre ++ [d]) (by rw [hr, h]; simp)
    generalize (∀ i, (pre ++ [d]).length ≤ i → i < (pre ++ [d]).length + ds.length → Fits64 (sum64 (pre ++ [d] ++ ds) i)) = F at ih ⊢
    unfold readMembersChecked
    refine (add64_decides last d).bind (D := CompleteMembers p (d :: ds) roles types ∧ F) (fun r hr _ _ => ?_) (by tauto)
    cases roles with
    | nil => exact .inr ⟨by rw [eC]; simp, rfl⟩
    | cons k ks =>
      dsimp only
      refine (strAt32_decides (p := p) k hl hs).bind (D := ∃ t ts, types = t :: ts ∧ (t = 0 ∨ t = 1 ∨ t = 2) ∧ CompleteMembers p ds ks ts ∧ F)
        (fun role _ _ _ => ?_) (by
          rw [eC]
          constructor
          · rintro ⟨⟨r, rs, t, ts, h1, rfl, h2, h3, h4⟩, hF⟩
            injection h1 with h1 h1'; subst h1; subst h1'
            exact ⟨h2, t, ts, rfl, h3, h4, hF⟩
          · rintro ⟨h2, t, ts, rfl, h3, h4, hF⟩
            exact ⟨⟨_, _, t, ts, rfl, rfl, h2, h3, h4⟩, hF⟩)
      cases types with
      | nil => exact .inr ⟨by simp, rfl⟩
      | cons t ts =>
        refine (mkMember_decides t _).bind (D := CompleteMembers p ds ks ts ∧ F) (fun m _ _ _ => ?_) (by simp)
        exact (ih r hr.2 ks ts).bind (D := True) (fun _ _ _ _ => .ok trivial trivial) (by simp)

/-- What dense node number `i` adds up to. -/
def FitsAt (p : Pb.PrimitiveBlock) (d : Pb.DenseNodes) (i : Nat) : Prop :=
  Fits64 (sum64 d.id i) ∧ Fits64 (sum64 d.lat i) ∧ Fits64 (sum64 d.lon i) ∧
    FitsCoordinate p (latOffset p) (sum64 d.lat i) ∧ FitsCoordinate p (lonOffset p) (sum64 d.lon i) ∧
    ∀ inf, d.denseinfo = some inf → Fits64 (sum64 inf.timestamp i) ∧ Fits64 (sum64 inf.timestamp i * dateGranularity p) ∧
      Fits64 (sum64 inf.changeset i) ∧ Fits32 (sum32 inf.uid i) ∧ Fits32 (sum32 inf.user_sid i)

/-- The sums so far, of the metadata. -/
structure SumsInfo (inf : Pb.DenseInfo) (i : Nat) (s : DenseState) : Prop where
  timestamp : s.last_timestamp.toInt = before64 inf.timestamp i
  changeset : s.last_changeset.toInt = before64 inf.changeset i
  uid : s.uid.toInt = before32 inf.uid i
  sid : s.last_user_sid.toInt = before32 inf.user_sid i

/-- The metadata of dense node number `i`: present, and in range. -/
def InfoAt (p : Pb.PrimitiveBlock) (inf : Pb.DenseInfo) (i : Nat) : Prop :=
  (i < inf.version.length ∧ i < inf.timestamp.length ∧ i < inf.changeset.length ∧ i < inf.uid.length ∧ i < inf.user_sid.length ∧
    InTable p ((sum32 inf.user_sid i).bmod (2 ^ 32))) ∧
  (Fits64 (sum64 inf.timestamp i) ∧ Fits64 (sum64 inf.timestamp i * dateGranularity p) ∧
    Fits64 (sum64 inf.changeset i) ∧ Fits32 (sum32 inf.uid i) ∧ Fits32 (sum32 inf.user_sid i))

theorem before64_next {ds : List Int64} {i : Nat} : before64 ds (i + 1) = sum64 ds i := rfl
theorem before32_next {ds : List Int32} {i : Nat} : before32 ds (i + 1) = sum32 ds i := rfl

theorem readDenseInfoChecked_decides (hl : tbl.length = p.stringtable.s.length) (hs : p.stringtable.s.length < 2 ^ 63)
    (info : Option Pb.DenseInfo) (i : Nat) (s : DenseState) (hu : ∀ inf, info = some inf → SumsInfo inf i s) :
    Decides (readDenseInfoChecked tbl (p.date_granularity.getD 1000) info i s) (∀ inf, info = some inf → InfoAt p inf i)
      fun r => (r.1.keyVals = s.keyVals ∧ r.1.last_id = s.last_id ∧ r.1.last_lat = s.last_lat ∧ r.1.last_lon = s.last_lon) ∧
        ∀ inf, info = some inf → SumsInfo inf (i + 1) r.1 := by
  cases info with
  | none => exact .ok (by simp) (by simp)
  | some inf =>
    have hu := hu inf rfl
    unfold readDenseInfoChecked
    simp only [Option.some.injEq, forall_eq']
    unfold InfoAt
    refine (unwrap_decides inf.timestamp i).bind (D := (i < inf.version.length ∧ i < inf.changeset.length ∧ i < inf.uid.length ∧
      i < inf.user_sid.length ∧ InTable p ((sum32 inf.user_sid i).bmod (2 ^ 32))) ∧ (Fits64 (sum64 inf.timestamp i) ∧ Fits64 (sum64 inf.timestamp i * dateGranularity p) ∧
    Fits64 (sum64 inf.changeset i) ∧ Fits32 (sum32 inf.uid i) ∧ Fits32 (sum32 inf.user_sid i))) (fun dts h1 _ _ => ?_) (by tauto)
    refine (add64_decides _ _).bind (D := (i < inf.version.length ∧ i < inf.changeset.length ∧ i < inf.uid.length ∧
      i < inf.user_sid.length ∧ InTable p ((sum32 inf.user_sid i).bmod (2 ^ 32))) ∧ (Fits64 (sum64 inf.timestamp i * dateGranularity p) ∧
    Fits64 (sum64 inf.changeset i) ∧ Fits32 (sum32 inf.uid i) ∧ Fits32 (sum32 inf.user_sid i))) (fun ts hts _ _ => ?_)
      (by rw [hu.timestamp, ← before64_succ h1]; tauto)
    have ets : ts.toInt = sum64 inf.timestamp i := by rw [hts.2, hu.timestamp, ← before64_succ h1]
    refine (mul64_decides _ _).bind (D := (i < inf.version.length ∧ i < inf.changeset.length ∧ i < inf.uid.length ∧
      i < inf.user_sid.length ∧ InTable p ((sum32 inf.user_sid i).bmod (2 ^ 32))) ∧ (
    Fits64 (sum64 inf.changeset i) ∧ Fits32 (sum32 inf.uid i) ∧ Fits32 (sum32 inf.user_sid i))) (fun time _ _ _ => ?_)
      (by rw [ets, dateGranularity_eq]; tauto)
    refine (unwrap_decides inf.changeset i).bind (D := (i < inf.version.length ∧ i < inf.uid.length ∧
      i < inf.user_sid.length ∧ InTable p ((sum32 inf.user_sid i).bmod (2 ^ 32))) ∧ (
    Fits64 (sum64 inf.changeset i) ∧ Fits32 (sum32 inf.uid i) ∧ Fits32 (sum32 inf.user_sid i))) (fun dcs h2 _ _ => ?_) (by tauto)
    refine (add64_decides _ _).bind (D := (i < inf.version.length ∧ i < inf.uid.length ∧
      i < inf.user_sid.length ∧ InTable p ((sum32 inf.user_sid i).bmod (2 ^ 32))) ∧ (Fits32 (sum32 inf.uid i) ∧ Fits32 (sum32 inf.user_sid i))) (fun cs hcs _ _ => ?_)
      (by rw [hu.changeset, ← before64_succ h2]; tauto)
    refine (unwrap_decides inf.uid i).bind (D := (i < inf.version.length ∧
      i < inf.user_sid.length ∧ InTable p ((sum32 inf.user_sid i).bmod (2 ^ 32))) ∧ (Fits32 (sum32 inf.uid i) ∧ Fits32 (sum32 inf.user_sid i))) (fun duid h3 _ _ => ?_) (by tauto)
    refine (add32_decides _ _).bind (D := (i < inf.version.length ∧
      i < inf.user_sid.length ∧ InTable p ((sum32 inf.user_sid i).bmod (2 ^ 32))) ∧ Fits32 (sum32 inf.user_sid i)) (fun uid huid _ _ => ?_)
      (by rw [hu.uid, ← before32_succ h3]; tauto)
    refine (unwrap_decides inf.user_sid i).bind (D := (i < inf.version.length ∧ InTable p ((sum32 inf.user_sid i).bmod (2 ^ 32))) ∧ Fits32 (sum32 inf.user_sid i)) (fun dsid h4 _ _ => ?_) (by tauto)
    refine (add32_decides _ _).bind (D := i < inf.version.length ∧ InTable p ((sum32 inf.user_sid i).bmod (2 ^ 32))) (fun sid hsid _ hsf => ?_)
      (by rw [hu.sid, ← before32_succ h4]; tauto)
    have esid : sid.toInt = sum32 inf.user_sid i := by rw [hsid.2, hu.sid, ← before32_succ h4]
    have ebm : (sum32 inf.user_sid i).bmod (2 ^ 32) = sid.toInt := by
      rw [esid]
      have h1 := Int32.le_toInt sid
      have h2 := Int32.toInt_lt sid
      rw [esid] at h1 h2
      apply Int.bmod_eq_of_le <;> omega
    rw [ebm]
    refine (unwrap_decides inf.version i).bind (D := InTable p sid.toInt) (fun version _ _ _ => ?_) Iff.rfl
    refine (strAt32_decides (p := p) _ hl hs).bind (D := True) (fun user _ _ _ => ?_) (by simp)
    exact .ok trivial ⟨⟨rfl, rfl, rfl, rfl⟩, ⟨ets, by rw [before64_next, ← (before64_succ h2).symm.trans rfl]; show cs.toInt = _; rw [hcs.2, hu.changeset], by
      show uid.toInt = _; rw [huid.2, hu.uid, before32_next, before32_succ h3], esid⟩⟩

theorem conditions_in_order (a b c d e f g h r k : Prop) : ((((b ∧ d ∧ a ∧ c ∧ e) ∧ (f ∧ g) ∧ h) ∧ r) ∧ k) ↔ a ∧ b ∧ c ∧ d ∧ e ∧ h ∧ k ∧ f ∧ g ∧ r := by
  constructor
  · rintro ⟨⟨⟨⟨hb, hd, ha, hc, he⟩, ⟨hf, hg⟩, hh⟩, hr⟩, hk⟩
    exact ⟨ha, hb, hc, hd, he, hh, hk, hf, hg, hr⟩
  · rintro ⟨ha, hb, hc, hd, he, hh, hk, hf, hg, hr⟩
    exact ⟨⟨⟨⟨hb, hd, ha, hc, he⟩, ⟨hf, hg⟩, hh⟩, hr⟩, hk⟩

theorem readDenseGoChecked_decides (hl : tbl.length = p.stringtable.s.length) (hs : p.stringtable.s.length < 2 ^ 63)
    (d : Pb.DenseNodes) (i : Nat) (ids : List Int64) (hid : d.id.drop i = ids) (s : DenseState)
    (h1 : s.last_id.toInt = before64 d.id i) (h2 : s.last_lat.toInt = before64 d.lat i) (h3 : s.last_lon.toInt = before64 d.lon i)
    (hu : ∀ inf, d.denseinfo = some inf → SumsInfo inf i s) :
    Decides (readDenseGoChecked tbl (p.granularity.getD 100).toInt64 (p.date_granularity.getD 1000) (p.lat_offset.getD 0) (p.lon_offset.getD 0) d i ids s)
      ((∀ j, i ≤ j → j < i + ids.length → CompleteAt p d j ∧ FitsAt p d j) ∧ CompleteKeysVals p ids.length s.keyVals) fun _ => True := by
  induction ids generalizing i s with
  | nil => exact .ok ⟨fun j h1 h2 => by simp at h2; omega, keysVals_zero _⟩ trivial
  | cons id ids ih =>
    have hidi : d.id[i]? = some id := by
      have := congrArg (·[0]?) hid
      simpa using this
    have hid' : d.id.drop (i + 1) = ids := by
      have := congrArg List.tail hid
      simpa using this
    unfold readDenseGoChecked
    have e : (∀ j, i ≤ j → j < i + (id :: ids).length → CompleteAt p d j ∧ FitsAt p d j) ↔
        (CompleteAt p d i ∧ FitsAt p d i) ∧ ∀ j, i + 1 ≤ j → j < i + 1 + ids.length → CompleteAt p d j ∧ FitsAt p d j := by
      constructor
      · exact fun h => ⟨h i le_rfl (by simp), fun j h1 h2 => h j (by omega) (by simp; omega)⟩
      · rintro ⟨h1, h2⟩ j h3 h4
        rcases Nat.eq_or_lt_of_le h3 with rfl | h5
        · exact h1
        · exact h2 j h5 (by simp at h4; omega)
    rw [e]
    generalize hrest : (∀ j, i + 1 ≤ j → j < i + 1 + ids.length → CompleteAt p d j ∧ FitsAt p d j) = rest at *
    have eI : CompleteAt p d i ∧ FitsAt p d i ↔ (i < d.lat.length ∧ i < d.lon.length ∧ Fits64 (sum64 d.id i) ∧ Fits64 (sum64 d.lat i) ∧ Fits64 (sum64 d.lon i)) ∧
        (FitsCoordinate p (latOffset p) (sum64 d.lat i) ∧ FitsCoordinate p (lonOffset p) (sum64 d.lon i)) ∧ ∀ inf, d.denseinfo = some inf → InfoAt p inf i := by
      unfold CompleteAt FitsAt InfoAt
      constructor
      · exact fun h => ⟨⟨h.1.1, h.1.2.1, h.2.1, h.2.2.1, h.2.2.2.1⟩, ⟨h.2.2.2.2.1, h.2.2.2.2.2.1⟩, fun inf hi => ⟨h.1.2.2 inf hi, h.2.2.2.2.2.2 inf hi⟩⟩
      · exact fun h => ⟨⟨h.1.1, h.1.2.1, fun inf hi => (h.2.2 inf hi).1⟩, h.1.2.2.1, h.1.2.2.2.1, h.1.2.2.2.2, h.2.1.1, h.2.1.2, fun inf hi => (h.2.2 inf hi).2⟩
    rw [eI, List.length_cons, conditions_in_order]
    generalize hIA : (∀ inf, d.denseinfo = some inf → InfoAt p inf i) = IA
    refine (add64_decides s.last_id id).bind (fun lid hlid _ _ => ?_) (by rw [h1, ← before64_succ hidi])
    refine (unwrap_decides d.lat i).bind (fun dlat hdlat _ _ => ?_) Iff.rfl
    refine (add64_decides s.last_lat dlat).bind (fun llat hllat _ _ => ?_) (by rw [h2, ← before64_succ hdlat])
    refine (unwrap_decides d.lon i).bind (fun dlon hdlon _ _ => ?_) Iff.rfl
    refine (add64_decides s.last_lon dlon).bind (fun llon hllon _ _ => ?_) (by rw [h3, ← before64_succ hdlon])
    have elid : lid.toInt = sum64 d.id i := by rw [hlid.2, h1, ← before64_succ hidi]
    have ellat : llat.toInt = sum64 d.lat i := by rw [hllat.2, h2, ← before64_succ hdlat]
    have ellon : llon.toInt = sum64 d.lon i := by rw [hllon.2, h3, ← before64_succ hdlon]
    dsimp only
    have hu2 : ∀ inf, d.denseinfo = some inf → SumsInfo inf i { s with last_id := lid, last_lat := llat, last_lon := llon } :=
      fun inf hi => ⟨(hu inf hi).1, (hu inf hi).2, (hu inf hi).3, (hu inf hi).4⟩
    refine (readDenseInfoChecked_decides hl hs d.denseinfo i _ hu2).bind
      (fun r hr _ _ => ?_) (by rw [hIA])
    obtain ⟨s', version, user⟩ := r
    obtain ⟨⟨hk, q1, q2, q3⟩, hu'⟩ := hr
    dsimp only at hk q1 q2 q3 hu' ⊢
    rw [hk]
    rcases readKeyVals_decides hl hs s.keyVals with ⟨tags, kv, e1, g1⟩ | ⟨e1, g1⟩
    · rw [e1, Out.ok_bind, g1]
      dsimp only
      have c1 := decodeCoord_decides (p := p) (p.lat_offset.getD 0) s'.last_lat _ (granularity_eq p)
      have c2 := decodeCoord_decides (p := p) (p.lon_offset.getD 0) s'.last_lon _ (granularity_eq p)
      rw [show s'.last_lat.toInt = sum64 d.lat i by rw [q2, ellat]] at c1
      rw [show s'.last_lon.toInt = sum64 d.lon i by rw [q3, ellon]] at c2
      refine c1.bind (D := FitsCoordinate p (lonOffset p) (sum64 d.lon i) ∧ rest ∧ CompleteKeysVals p ids.length kv) (fun _ _ _ _ => ?_)
        ⟨fun h => ⟨h.2.1, h.2.2.1, h.2.2.2, h.1⟩, fun h => ⟨h.2.2.2, h.1, h.2.1, h.2.2.1⟩⟩
      refine c2.bind (D := rest ∧ CompleteKeysVals p ids.length kv) (fun _ _ _ _ => ?_) Iff.rfl
      refine (ih (i + 1) hid' { s' with keyVals := kv } (by show s'.last_id.toInt = _; rw [q1, elid]; rfl) (by show s'.last_lat.toInt = _; rw [q2, ellat]; rfl)
        (by show s'.last_lon.toInt = _; rw [q3, ellon]; rfl) (fun inf hi => ⟨(hu' inf hi).1, (hu' inf hi).2, (hu' inf hi).3, (hu' inf hi).4⟩)).bind (D := True) (fun es hes _ _ => ?_) (by subst hrest; simp)
      exact .ok trivial trivial
    · rw [e1]
      exact .inr ⟨fun h => g1 _ h.1, rfl⟩

theorem readDenseChecked_decides (hl : tbl.length = p.stringtable.s.length) (hs : p.stringtable.s.length < 2 ^ 63) (dense : Option Pb.DenseNodes) :
    Decides (readDenseChecked tbl (p.granularity.getD 100).toInt64 (p.date_granularity.getD 1000) (p.lat_offset.getD 0) (p.lon_offset.getD 0) dense)
      ((∀ d, dense = some d → CompleteDense p d) ∧ ∀ d, dense = some d → FitsDense p d) fun _ => True := by
  cases dense with
  | none => exact .ok (by simp) trivial
  | some d =>
    refine (readDenseGoChecked_decides hl hs d 0 d.id rfl (DenseState.init d) rfl rfl rfl (fun inf hi => ?_)).congr ?_
    · exact ⟨rfl, by simp [DenseState.init, hi, before64], by simp [DenseState.init, hi, before32], rfl⟩
    simp only [Option.some.injEq, forall_eq']
    constructor
    · exact fun h => ⟨fun j _ hj => ⟨h.1.1 j (by omega), h.2 j (by omega)⟩, h.1.2⟩
    · exact fun h => ⟨⟨fun j hj => (h.1 j (by omega) (by omega)).1, h.2⟩, fun j hj => (h.1 j (by omega) (by omega)).2⟩

theorem forall_and_mem {α : Type} {l : List α} {P Q : α → Prop} : (∀ a ∈ l, P a ∧ Q a) ↔ (∀ a ∈ l, P a) ∧ ∀ a ∈ l, Q a :=
  ⟨fun h => ⟨fun a ha => (h a ha).1, fun a ha => (h a ha).2⟩, fun h a ha => ⟨h.1 a ha, h.2 a ha⟩⟩

theorem readGroupChecked_decides (hl : tbl.length = p.stringtable.s.length) (hs : p.stringtable.s.length < 2 ^ 63) (gr : Pb.PrimitiveGroup) :
    Decides (readGroupChecked tbl (p.granularity.getD 100).toInt64 (p.date_granularity.getD 1000) (p.lat_offset.getD 0) (p.lon_offset.getD 0) gr)
      (CompleteGroup p gr ∧ FitsGroup p gr) fun _ => True := by
  unfold readGroupChecked CompleteGroup FitsGroup
  have hn : ∀ n ∈ gr.nodes, Decides (readNodeChecked tbl (p.granularity.getD 100).toInt64 (p.date_granularity.getD 1000) (p.lat_offset.getD 0) (p.lon_offset.getD 0) n)
      ((CompleteInfo p n.info ∧ CompleteTags p n.keys n.vals) ∧ FitsCoordinate p (latOffset p) n.lat.toInt ∧ FitsCoordinate p (lonOffset p) n.lon.toInt ∧ FitsInfo p n.info)
      fun _ => True := by
    intro n _
    unfold readNodeChecked
    refine (decodeCoord_decides (p := p) _ _ _ (granularity_eq p)).bind (D := (CompleteInfo p n.info ∧ CompleteTags p n.keys n.vals) ∧ FitsCoordinate p (lonOffset p) n.lon.toInt ∧ FitsInfo p n.info)
      (fun _ _ _ _ => ?_) (by rw [latOffset]; tauto)
    refine (decodeCoord_decides (p := p) _ _ _ (granularity_eq p)).bind (D := (CompleteInfo p n.info ∧ CompleteTags p n.keys n.vals) ∧ FitsInfo p n.info)
      (fun _ _ _ _ => ?_) (by rw [lonOffset]; tauto)
    refine (readInfoChecked_decides hl _).bind (D := CompleteTags p n.keys n.vals) (fun _ _ _ _ => ?_) (by tauto)
    exact (readTags_decides hl _ _).bind (D := True) (fun _ _ _ _ => .ok trivial trivial) (by simp)
  have hw : ∀ w ∈ gr.ways, Decides (readWayChecked tbl (p.date_granularity.getD 1000) w)
      ((CompleteInfo p w.info ∧ CompleteTags p w.keys w.vals) ∧ FitsInfo p w.info ∧ FitsColumn w.refs) fun _ => True := by
    intro w _
    unfold readWayChecked
    refine (readInfoChecked_decides hl _).bind (D := FitsColumn w.refs ∧ CompleteTags p w.keys w.vals) (fun _ _ _ _ => ?_) (by tauto)
    refine (undelta0_decides _).bind (D := CompleteTags p w.keys w.vals) (fun _ _ _ _ => ?_) Iff.rfl
    exact (readTags_decides hl _ _).bind (D := True) (fun _ _ _ _ => .ok trivial trivial) (by simp)
  have hr : ∀ r ∈ gr.relations, Decides (readRelationChecked tbl (p.date_granularity.getD 1000) r)
      ((CompleteInfo p r.info ∧ CompleteMembers p r.memids r.roles_sid r.types ∧ CompleteTags p r.keys r.vals) ∧ FitsInfo p r.info ∧ FitsColumn r.memids) fun _ => True := by
    intro r _
    unfold readRelationChecked
    refine (readInfoChecked_decides hl _).bind (D := (CompleteMembers p r.memids r.roles_sid r.types ∧ FitsColumn r.memids) ∧ CompleteTags p r.keys r.vals) (fun _ _ _ _ => ?_) (by tauto)
    refine (readMembersChecked_decides hl hs 0 [] r.memids rfl _ _).bind (D := CompleteTags p r.keys r.vals) (fun _ _ _ _ => ?_) (by simp [FitsColumn])
    exact (readTags_decides hl _ _).bind (D := True) (fun _ _ _ _ => .ok trivial trivial) (by simp)
  have kn := Decides.mapM _ hn
  have kw := Decides.mapM _ hw
  have kr := Decides.mapM _ hr
  rw [forall_and_mem] at kn kw kr
  have kd := readDenseChecked_decides (p := p) hl hs gr.dense
  generalize (∀ d, gr.dense = some d → CompleteDense p d) = A1 at kd ⊢
  generalize (∀ d, gr.dense = some d → FitsDense p d) = A2 at kd ⊢
  generalize (∀ n ∈ gr.nodes, CompleteInfo p n.info ∧ CompleteTags p n.keys n.vals) = B1 at kn ⊢
  generalize (∀ n ∈ gr.nodes, FitsCoordinate p (latOffset p) n.lat.toInt ∧ FitsCoordinate p (lonOffset p) n.lon.toInt ∧ FitsInfo p n.info) = B2 at kn ⊢
  generalize (∀ w ∈ gr.ways, CompleteInfo p w.info ∧ CompleteTags p w.keys w.vals) = C1 at kw ⊢
  generalize (∀ w ∈ gr.ways, FitsInfo p w.info ∧ FitsColumn w.refs) = C2 at kw ⊢
  generalize (∀ r ∈ gr.relations, CompleteInfo p r.info ∧ CompleteMembers p r.memids r.roles_sid r.types ∧ CompleteTags p r.keys r.vals) = D1 at kr ⊢
  generalize (∀ r ∈ gr.relations, FitsInfo p r.info ∧ FitsColumn r.memids) = D2 at kr ⊢
  refine kd.bind (D := (B1 ∧ B2) ∧ (C1 ∧ C2) ∧ (D1 ∧ D2) ∧ gr.changesets = []) (fun a _ _ _ => ?_) (by tauto)
  refine kn.bind (D := (C1 ∧ C2) ∧ (D1 ∧ D2) ∧ gr.changesets = []) (fun b _ _ _ => ?_) Iff.rfl
  refine kw.bind (D := (D1 ∧ D2) ∧ gr.changesets = []) (fun b _ _ _ => ?_) Iff.rfl
  refine kr.bind (D := gr.changesets = []) (fun b _ _ _ => ?_) Iff.rfl
  cases hcs : gr.changesets with
  | nil => exact .ok rfl trivial
  | cons x xs => exact .inr ⟨by simp, rfl⟩

end

/-- C85. A build with overflow checks reads a block exactly if it is complete and no number overflows, and then reads what a build without
checks reads; in all other cases it panics. -/
theorem C85_read (p : Pb.PrimitiveBlock) (data : Bytes) (h : IsPrimitiveBlock p data) (hs : p.stringtable.s.length < 2 ^ 63) :
    ((Complete p ∧ NoOverflow p) ∧ ∃ es, parseDataChecked data = .ok es ∧ parseData data = .ok es) ∨
    (¬ (Complete p ∧ NoOverflow p) ∧ parseDataChecked data = .panic) := by
  have key : Decides (parseDataChecked data) (Complete p ∧ NoOverflow p) fun _ => True := by
    unfold parseDataChecked Complete NoOverflow
    rw [PrimitiveBlock.decode_of h]
    refine (strings_decides p).bind (D := (∀ g ∈ p.primitivegroup, CompleteGroup p g) ∧ ∀ g ∈ p.primitivegroup, FitsGroup p g) (fun tbl hl _ _ => ?_) (by tauto)
    have := Decides.mapM p.primitivegroup (fun g _ => readGroupChecked_decides (p := p) hl hs g)
    rw [forall_and_mem] at this
    exact this.bind (D := True) (fun _ _ _ _ => .ok trivial trivial) (by simp)
  rcases key with ⟨hc, es, he, _⟩ | ⟨hc, he⟩
  · refine .inl ⟨hc, es, he, ?_⟩
    rcases C85_read_same data with h | h
    · rw [← h, he]
    · rw [he] at h; simp at h
  · exact .inr ⟨hc, he⟩

/-! ## Blocks as the format describes them -/

/-- A position within 2^53 nanodegrees, with an offset that is not extreme. -/
theorem fitsCoordinate_of {p : Pb.PrimitiveBlock} {o v : ℤ} (ho : |o| ≤ 2 ^ 62) (h : |o + granularity p * v| ≤ 2 ^ 53) : FitsCoordinate p o v := by
  unfold FitsCoordinate Fits64
  generalize granularity p * v = m at *
  rw [abs_le] at ho h
  omega

/-- A multiple of a positive number is at least as large. -/
theorem fits64_of_mul {g n : ℤ} (hg : 1 ≤ g) (h : Fits64 (g * n)) : Fits64 n := by
  unfold Fits64 at *
  constructor
  · by_contra hn
    have : g * n ≤ n := by nlinarith
    omega
  · by_contra hn
    have : n ≤ g * n := by nlinarith
    omega

theorem fitsInfo_of {p : Pb.PrimitiveBlock} {info : Option Pb.Info} {version : Int32} {timestamp changeset : Int64} {uid : Int32} {user : String} {visible : Bool}
    (h : ∃ inf, info = some inf ∧ Info p inf version timestamp changeset uid user visible) : FitsInfo p info := by
  obtain ⟨inf, rfl, h⟩ := h
  intro i hi
  injection hi with hi; subst hi
  obtain ⟨t, h1, h2⟩ := h.timestamp
  rw [h1, Option.getD_some, mul_comm, ← h2]
  exact fits64_of _

theorem fitsPosition_of {p : Pb.PrimitiveBlock} (hu : UsualUnits p) {lat lon : ℤ} {c : Coordinate} (h : Position p lat lon c) :
    FitsCoordinate p (latOffset p) lat ∧ FitsCoordinate p (lonOffset p) lon :=
  ⟨fitsCoordinate_of hu.2.2.1 h.1.1, fitsCoordinate_of hu.2.2.2 h.2.1⟩

theorem fitsDense_of {p : Pb.PrimitiveBlock} (hu : UsualUnits p) (hc : p.stringtable.s.length < 2 ^ 31) {d : Pb.DenseNodes} {ns : List Node} (h : Dense p d ns) :
    FitsDense p d := by
  intro i hi
  rw [h.count] at hi
  have hn : ns[i]? = some ns[i] := List.getElem?_eq_getElem hi
  have h1 := h.id i _ hn
  obtain ⟨_, _, h2⟩ := h.position i _ hn
  obtain ⟨inf, h3, h4⟩ := h.info
  have h4 := h4 i _ hn
  have hp := fitsPosition_of hu h2
  have one (o v : ℤ) (ho : |o| ≤ 2 ^ 62) (hf : |o + granularity p * v| ≤ 2 ^ 53) : Fits64 v := fits64_of_mul hu.1 (fitsCoordinate_of ho hf).1
  refine ⟨by rw [← h1]; exact fits64_of _, one _ _ hu.2.2.1 h2.1.1, one _ _ hu.2.2.2 h2.2.1, hp.1, hp.2, ?_⟩
  intro inf' hi'
  rw [h3] at hi'
  injection hi' with hi'; subst hi'
  have ht : Fits64 (dateGranularity p * sum64 inf.timestamp i) := by rw [← h4.timestamp.2]; exact fits64_of _
  refine ⟨fits64_of_mul hu.2.1 ht, by rw [mul_comm]; exact ht, by rw [← h4.changeset.2]; exact fits64_of _, by rw [← h4.uid.2]; exact fits32_of _, ?_⟩
  obtain ⟨n, e1, e2⟩ := h4.user.2
  have := (List.getElem?_eq_some_iff.1 e2).1
  rw [e1]
  unfold Fits32
  omega

/-- No number overflows in a block that describes elements in the usual units. -/
theorem C85_published (p : Pb.PrimitiveBlock) (es : List Element) (h : Block p es) (hu : UsualUnits p) : NoOverflow p := by
  intro g hg
  obtain ⟨gs, _, hf⟩ := h.groups
  obtain ⟨es', hg'⟩ : ∃ es', Group p g es' := by
    clear * - hf hg
    generalize p.primitivegroup = l at hf hg
    induction hf with
    | nil => simp at hg
    | cons h _ ih =>
      rcases List.mem_cons.1 hg with rfl | hg
      · exact ⟨_, h⟩
      · exact ih hg
  obtain ⟨_, dns, ns, ws, rs, _, hd, hn, hw, hr⟩ := hg'
  have mem {α β : Type} {R : α → β → Prop} {as : List α} {bs : List β} (h : List.Forall₂ R as bs) : ∀ a ∈ as, ∃ b, R a b := by
    induction h with
    | nil => simp
    | cons h _ ih =>
      intro a ha
      rcases List.mem_cons.1 ha with rfl | ha
      · exact ⟨_, h⟩
      · exact ih a ha
  refine ⟨fun d hdd => ?_, fun m hm => ?_, fun m hm => ?_, fun m hm => ?_⟩
  · rw [hdd] at hd
    exact fitsDense_of hu h.strings_count hd
  · obtain ⟨n, hn⟩ := mem hn m hm
    have := fitsPosition_of hu hn.position
    exact ⟨this.1, this.2, fitsInfo_of hn.info⟩
  · obtain ⟨w, hw⟩ := mem hw m hm
    refine ⟨fitsInfo_of hw.info, fun i hi => ?_⟩
    rw [← hw.refs_length] at hi
    rw [← hw.refs i _ (List.getElem?_eq_getElem hi)]
    exact fits64_of _
  · obtain ⟨r, hr⟩ := mem hr m hm
    refine ⟨fitsInfo_of hr.info, fun i hi => ?_⟩
    rw [hr.memids_length] at hi
    rw [← hr.memids i _ (List.getElem?_eq_getElem hi)]
    exact fits64_of _

/-- Such a block is read by a build with overflow checks too, and as the elements it describes. -/
theorem C85_read_published (p : Pb.PrimitiveBlock) (es : List Element) (data : Bytes) (hd : IsPrimitiveBlock p data) (h : Block p es) (hu : UsualUnits p) :
    parseDataChecked data = .ok es := by
  have hs : p.stringtable.s.length < 2 ^ 63 := lt_trans h.strings_count (by norm_num)
  have hr : parseData data = .ok es := by
    unfold parseData; rw [PrimitiveBlock.decode_of hd]; exact C55_block_read_as_published p es h
  rcases C85_read p data hd hs with ⟨_, es', h1, h2⟩ | ⟨hn, _⟩
  · rw [hr] at h2
    injection h2 with h2
    rw [h1, h2]
  · refine absurd ⟨?_, C85_published p es h hu⟩ hn
    exact (C84_published p es h).1

/-- The hypotheses are met. -/
example : UsualUnits exForeign ∧ Complete exForeign ∧ NoOverflow exForeign := by
  have hu : UsualUnits exForeign := by unfold UsualUnits; decide
  exact ⟨hu, (C84_published _ _ exForeign_block).1, C85_published _ _ exForeign_block hu⟩

end OsmIo
