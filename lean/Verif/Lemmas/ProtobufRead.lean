import Verif.Lemmas.Protobuf
import Verif.Lemmas.Proto
/-!
# Decoding any published encoding of a message

For each message: merging fields of different numbers commutes, unknown fields are ignored, and decoding any encoding of a message gives the message.
-/
set_option linter.unusedSimpArgs false
set_option linter.unusedTactic false
set_option linter.unreachableTactic false
set_option linter.flexible false
set_option linter.unusedVariables false
namespace OsmIo
open Wire Spec Spec.Protobuf

theorem toInt32_twos (x : Int32) : toInt32 (twos x.toInt) = x := by rw [← ofInt32_twos, toInt32_of]
theorem toInt64_twos (x : Int64) : toInt64 (twos x.toInt) = x := by rw [← ofInt64_twos, toInt64_of]
theorem toUInt32_twos (x : UInt32) : toUInt32 (twos ((fun x => (UInt32.toNat x : ℤ)) x)) = x := by
  show toUInt32 (twos (x.toNat : ℤ)) = x
  rw [← ofUInt32_twos, toUInt32_of]
theorem toBool_twos (x : Bool) : toBool (twos (bit x)) = x := by rw [← ofBool_twos, toBool_of]
theorem toSInt32_zigzag (x : Int32) : toSInt32 (zigzag x.toInt) = x := by rw [← ofSInt32_zigzag, toSInt32_of]
theorem toSInt64_zigzag (x : Int64) : toSInt64 (zigzag x.toInt) = x := by rw [← ofSInt64_zigzag, toSInt64_of]
theorem forall₂_utf8 (xs : List String) : List.Forall₂ (fun (x : String) b => b = utf8 x) xs (xs.map utf8) := by
  rw [List.forall₂_map_right_iff]
  exact List.forall₂_same.2 fun _ _ => rfl

theorem seg_optStr {M : Type} {step : M → Field → Option M} {t : Nat} {fs : List (Nat × Item)} {raw : List Field}
    (h : List.Forall₂ RawField fs raw) (o : Option String)
    (ho : OptText t fs o) (set : String → M → M) (hstep : ∀ a v, step a ⟨t, v⟩ = (getStr v).map (set · a))
    (hset : ∀ x y a, set x (set y a) = set x a) (a : M) : (seg t raw).foldlM step a = some (o.elim a fun x => set x a) := by
  obtain ⟨ns, h1, h2⟩ := ho
  have hs := seg_raw h t
  rw [h1] at hs
  rw [seg_last hs set id (fun a b v hv _ => by
    cases hv
    rw [hstep]
    show Option.map _ (strOf (strBytes b)) = _
    rw [strOf_strBytes]; rfl) hset, h2]
  simp

theorem seg_repMsg {M α : Type} {step : M → Field → Option M} {t : Nat} {fs : List (Nat × Item)} {raw : List Field}
    (h : List.Forall₂ RawField fs raw) (R : α → Bytes → Prop) (xs : List α)
    (ho : RepMsg t fs R xs) (app : List α → M → M)
    (hstep : ∀ a x b, R x b → step a ⟨t, .len b⟩ = some (app [x] a))
    (hnil : ∀ a, app [] a = a) (happ : ∀ x y a, app x (app y a) = app (y ++ x) a) (a : M) :
    (seg t raw).foldlM step a = some (app xs a) := by
  obtain ⟨bs, h1, h2⟩ := ho
  exact seg_repBytes h bs xs R h1 h2 app hstep hnil happ a

theorem comm_mm {M α β : Type} {A : Option α} {B : Option β} {F : M → α → M} {G : M → β → M} (m : M)
    (h : ∀ a b, G (F m a) b = F (G m b) a) : (A.map (F m)).bind (fun m => B.map (G m)) = (B.map (G m)).bind (fun m => A.map (F m)) := by
  cases A <;> cases B <;> simp [h]

theorem comm_mb {M α β β' : Type} {A : Option α} {B : Option β} {L : M → β → Option β'} {F : M → α → M} {G : M → β' → M} (m : M)
    (hL : ∀ a, L (F m a) = L m) (h : ∀ a b, G (F m a) b = F (G m b) a) :
    (A.map (F m)).bind (fun m => B.bind fun y => (L m y).map (G m)) = (B.bind fun y => (L m y).map (G m)).bind (fun m => A.map (F m)) := by
  cases A with
  | none => cases B with
    | none => rfl
    | some b => simp
  | some a => cases B with
    | none => rfl
    | some b => 
      simp only [Option.map_some, Option.bind_some, hL]
      cases L m b <;> simp [h]

theorem comm_bm {M α β β' : Type} {A : Option α} {B : Option β} {L : M → β → Option β'} {F : M → α → M} {G : M → β' → M} (m : M)
    (hL : ∀ a, L (F m a) = L m) (h : ∀ a b, F (G m b) a = G (F m a) b) :
    (B.bind fun y => (L m y).map (G m)).bind (fun m => A.map (F m)) = (A.map (F m)).bind (fun m => B.bind fun y => (L m y).map (G m)) :=
  (comm_mb m hL fun a b => (h a b).symm).symm

theorem comm_bb {M α α' β β' : Type} {A : Option α} {B : Option β} {K : M → α → Option α'} {L : M → β → Option β'} {F : M → α' → M}
    {G : M → β' → M} (m : M) (hK : ∀ b, K (G m b) = K m) (hL : ∀ a, L (F m a) = L m) (h : ∀ a b, G (F m a) b = F (G m b) a) :
    (A.bind fun x => (K m x).map (F m)).bind (fun m => B.bind fun y => (L m y).map (G m)) =
      (B.bind fun y => (L m y).map (G m)).bind (fun m => A.bind fun x => (K m x).map (F m)) := by
  cases A with
  | none => cases B with
    | none => rfl
    | some b => simp
  | some a => cases B with
    | none => simp
    | some b =>
      simp only [Option.bind_some]
      cases h1 : K m a <;> cases h2 : L m b <;> simp [hK, hL, h1, h2, h]

theorem StringTable.commutes : Commutes (fun _ => True) Pb.StringTable.step := by
  intro m f g _ _ h
  obtain ⟨t, v⟩ := f
  obtain ⟨s, w⟩ := g
  simp only [ne_eq] at h
  simp only [Pb.StringTable.step]
  split <;> split <;> first
    | exact absurd rfl h
    | exact Option.bind_fun_some _
    | exact (Option.bind_fun_some _).symm
    | rfl
    | (apply comm_mm m; intros; rfl)
    | (apply comm_mb m <;> intros <;> rfl)
    | (apply comm_bm m <;> intros <;> rfl)
    | (apply comm_bb m <;> intros <;> rfl)

theorem Info.commutes : Commutes (fun _ => True) Pb.Info.step := by
  intro m f g _ _ h
  obtain ⟨t, v⟩ := f
  obtain ⟨s, w⟩ := g
  simp only [ne_eq] at h
  simp only [Pb.Info.step]
  split <;> split <;> first
    | exact absurd rfl h
    | exact Option.bind_fun_some _
    | exact (Option.bind_fun_some _).symm
    | rfl
    | (apply comm_mm m; intros; rfl)
    | (apply comm_mb m <;> intros <;> rfl)
    | (apply comm_bm m <;> intros <;> rfl)
    | (apply comm_bb m <;> intros <;> rfl)

theorem DenseInfo.commutes : Commutes (fun _ => True) Pb.DenseInfo.step := by
  intro m f g _ _ h
  obtain ⟨t, v⟩ := f
  obtain ⟨s, w⟩ := g
  simp only [ne_eq] at h
  simp only [Pb.DenseInfo.step]
  split <;> split <;> first
    | exact absurd rfl h
    | exact Option.bind_fun_some _
    | exact (Option.bind_fun_some _).symm
    | rfl
    | (apply comm_mm m; intros; rfl)
    | (apply comm_mb m <;> intros <;> rfl)
    | (apply comm_bm m <;> intros <;> rfl)
    | (apply comm_bb m <;> intros <;> rfl)

theorem ChangeSet.commutes : Commutes (fun _ => True) Pb.ChangeSet.step := by
  intro m f g _ _ h
  obtain ⟨t, v⟩ := f
  obtain ⟨s, w⟩ := g
  simp only [ne_eq] at h
  simp only [Pb.ChangeSet.step]
  split <;> split <;> first
    | exact absurd rfl h
    | exact Option.bind_fun_some _
    | exact (Option.bind_fun_some _).symm
    | rfl
    | (apply comm_mm m; intros; rfl)
    | (apply comm_mb m <;> intros <;> rfl)
    | (apply comm_bm m <;> intros <;> rfl)
    | (apply comm_bb m <;> intros <;> rfl)

theorem Node.commutes : Commutes (fun _ => True) Pb.Node.step := by
  intro m f g _ _ h
  obtain ⟨t, v⟩ := f
  obtain ⟨s, w⟩ := g
  simp only [ne_eq] at h
  simp only [Pb.Node.step]
  split <;> split <;> first
    | exact absurd rfl h
    | exact Option.bind_fun_some _
    | exact (Option.bind_fun_some _).symm
    | rfl
    | (apply comm_mm m; intros; rfl)
    | (apply comm_mb m <;> intros <;> rfl)
    | (apply comm_bm m <;> intros <;> rfl)
    | (apply comm_bb m <;> intros <;> rfl)

theorem DenseNodes.commutes : Commutes (fun _ => True) Pb.DenseNodes.step := by
  intro m f g _ _ h
  obtain ⟨t, v⟩ := f
  obtain ⟨s, w⟩ := g
  simp only [ne_eq] at h
  simp only [Pb.DenseNodes.step]
  split <;> split <;> first
    | exact absurd rfl h
    | exact Option.bind_fun_some _
    | exact (Option.bind_fun_some _).symm
    | rfl
    | (apply comm_mm m; intros; rfl)
    | (apply comm_mb m <;> intros <;> rfl)
    | (apply comm_bm m <;> intros <;> rfl)
    | (apply comm_bb m <;> intros <;> rfl)

theorem Way.commutes : Commutes (fun _ => True) Pb.Way.step := by
  intro m f g _ _ h
  obtain ⟨t, v⟩ := f
  obtain ⟨s, w⟩ := g
  simp only [ne_eq] at h
  simp only [Pb.Way.step]
  split <;> split <;> first
    | exact absurd rfl h
    | exact Option.bind_fun_some _
    | exact (Option.bind_fun_some _).symm
    | rfl
    | (apply comm_mm m; intros; rfl)
    | (apply comm_mb m <;> intros <;> rfl)
    | (apply comm_bm m <;> intros <;> rfl)
    | (apply comm_bb m <;> intros <;> rfl)

theorem Relation.commutes : Commutes (fun _ => True) Pb.Relation.step := by
  intro m f g _ _ h
  obtain ⟨t, v⟩ := f
  obtain ⟨s, w⟩ := g
  simp only [ne_eq] at h
  simp only [Pb.Relation.step]
  split <;> split <;> first
    | exact absurd rfl h
    | exact Option.bind_fun_some _
    | exact (Option.bind_fun_some _).symm
    | rfl
    | (apply comm_mm m; intros; rfl)
    | (apply comm_mb m <;> intros <;> rfl)
    | (apply comm_bm m <;> intros <;> rfl)
    | (apply comm_bb m <;> intros <;> rfl)

theorem PrimitiveGroup.commutes : Commutes (fun _ => True) Pb.PrimitiveGroup.step := by
  intro m f g _ _ h
  obtain ⟨t, v⟩ := f
  obtain ⟨s, w⟩ := g
  simp only [ne_eq] at h
  simp only [Pb.PrimitiveGroup.step]
  split <;> split <;> first
    | exact absurd rfl h
    | exact Option.bind_fun_some _
    | exact (Option.bind_fun_some _).symm
    | rfl
    | (apply comm_mm m; intros; rfl)
    | (apply comm_mb m <;> intros <;> rfl)
    | (apply comm_bm m <;> intros <;> rfl)
    | (apply comm_bb m <;> intros <;> rfl)

theorem PrimitiveBlock.commutes : Commutes (fun _ => True) Pb.PrimitiveBlock.step := by
  intro m f g _ _ h
  obtain ⟨t, v⟩ := f
  obtain ⟨s, w⟩ := g
  simp only [ne_eq] at h
  simp only [Pb.PrimitiveBlock.step]
  split <;> split <;> first
    | exact absurd rfl h
    | exact Option.bind_fun_some _
    | exact (Option.bind_fun_some _).symm
    | rfl
    | (apply comm_mm m; intros; rfl)
    | (apply comm_mb m <;> intros <;> rfl)
    | (apply comm_bm m <;> intros <;> rfl)
    | (apply comm_bb m <;> intros <;> rfl)

theorem HeaderBBox.commutes : Commutes (fun _ => True) Pb.HeaderBBox.step := by
  intro m f g _ _ h
  obtain ⟨t, v⟩ := f
  obtain ⟨s, w⟩ := g
  simp only [ne_eq] at h
  simp only [Pb.HeaderBBox.step]
  split <;> split <;> first
    | exact absurd rfl h
    | exact Option.bind_fun_some _
    | exact (Option.bind_fun_some _).symm
    | rfl
    | (apply comm_mm m; intros; rfl)
    | (apply comm_mb m <;> intros <;> rfl)
    | (apply comm_bm m <;> intros <;> rfl)
    | (apply comm_bb m <;> intros <;> rfl)

theorem HeaderBlock.commutes : Commutes (fun _ => True) Pb.HeaderBlock.step := by
  intro m f g _ _ h
  obtain ⟨t, v⟩ := f
  obtain ⟨s, w⟩ := g
  simp only [ne_eq] at h
  simp only [Pb.HeaderBlock.step]
  split <;> split <;> first
    | exact absurd rfl h
    | exact Option.bind_fun_some _
    | exact (Option.bind_fun_some _).symm
    | rfl
    | (apply comm_mm m; intros; rfl)
    | (apply comm_mb m <;> intros <;> rfl)
    | (apply comm_bm m <;> intros <;> rfl)
    | (apply comm_bb m <;> intros <;> rfl)

theorem BlobHeader.commutes : Commutes (fun _ => True) Pb.BlobHeader.step := by
  intro m f g _ _ h
  obtain ⟨t, v⟩ := f
  obtain ⟨s, w⟩ := g
  simp only [ne_eq] at h
  simp only [Pb.BlobHeader.step]
  split <;> split <;> first
    | exact absurd rfl h
    | exact Option.bind_fun_some _
    | exact (Option.bind_fun_some _).symm
    | rfl
    | (apply comm_mm m; intros; rfl)
    | (apply comm_mb m <;> intros <;> rfl)
    | (apply comm_bm m <;> intros <;> rfl)
    | (apply comm_bb m <;> intros <;> rfl)

theorem StringTable.decode_of {m : Pb.StringTable} {b : Bytes} (h : IsStringTable m b) : Pb.StringTable.decode b = some m := by
  obtain ⟨fs, hf, h1⟩ := h
  obtain ⟨raw, hp, hr⟩ := parse_of 99 hf
  rw [Pb.StringTable.decode, Pb.StringTable.merge, hp, Option.bind_some]
  rw [foldlM_by_tags StringTable.commutes [1] (by decide) raw (fun _ _ => trivial) (by
    intro f _ hf m
    obtain ⟨t, v⟩ := f
    simp only [Pb.StringTable.step]
    split <;> first | rfl | exact absurd (by simp) hf) {}]
  simp only [List.flatMap_cons, List.flatMap_nil, List.append_nil, List.foldlM_append]
  rw [seg_repBytes hr m.s m.s Eq h1 (List.forall₂_same.2 fun _ _ => rfl) (fun x m => { m with s := m.s ++ x }) (fun a x b h => by subst h; rfl) (fun _ => by simp) (fun _ _ _ => by simp)]
  obtain ⟨s_⟩ := m
  simp

theorem Info.decode_of {m : Pb.Info} {b : Bytes} (h : IsInfo m b) : Pb.Info.decode b = some m := by
  obtain ⟨fs, hf, h1, h2, h3, h4, h5, h6⟩ := h
  obtain ⟨raw, hp, hr⟩ := parse_of 97 hf
  rw [Pb.Info.decode, Pb.Info.merge, hp, Option.bind_some]
  rw [foldlM_by_tags Info.commutes [1, 2, 3, 4, 5, 6] (by decide) raw (fun _ _ => trivial) (by
    intro f _ hf m
    obtain ⟨t, v⟩ := f
    simp only [Pb.Info.step]
    split <;> first | rfl | exact absurd (by simp) hf) {}]
  simp only [List.flatMap_cons, List.flatMap_nil, List.append_nil, List.foldlM_append]
  rw [seg_optInt hr Int32.toInt toInt32 toInt32_twos m.version h1 (fun x m => { m with version := some x }) (fun _ _ => rfl) (fun _ _ _ => rfl)]
  simp only [Option.bind_eq_bind, Option.bind_some]
  rw [seg_optInt hr Int64.toInt toInt64 toInt64_twos m.timestamp h2 (fun x m => { m with timestamp := some x }) (fun _ _ => rfl) (fun _ _ _ => rfl)]
  simp only [Option.bind_eq_bind, Option.bind_some]
  rw [seg_optInt hr Int64.toInt toInt64 toInt64_twos m.changeset h3 (fun x m => { m with changeset := some x }) (fun _ _ => rfl) (fun _ _ _ => rfl)]
  simp only [Option.bind_eq_bind, Option.bind_some]
  rw [seg_optInt hr Int32.toInt toInt32 toInt32_twos m.uid h4 (fun x m => { m with uid := some x }) (fun _ _ => rfl) (fun _ _ _ => rfl)]
  simp only [Option.bind_eq_bind, Option.bind_some]
  rw [seg_optInt hr (fun x => (UInt32.toNat x : ℤ)) toUInt32 toUInt32_twos m.user_sid h5 (fun x m => { m with user_sid := some x }) (fun _ _ => rfl) (fun _ _ _ => rfl)]
  simp only [Option.bind_eq_bind, Option.bind_some]
  rw [seg_optInt hr bit toBool toBool_twos m.visible h6 (fun x m => { m with visible := some x }) (fun _ _ => rfl) (fun _ _ _ => rfl)]
  obtain ⟨version_, timestamp_, changeset_, uid_, user_sid_, visible_⟩ := m
  cases version_ <;> cases timestamp_ <;> cases changeset_ <;> cases uid_ <;> cases user_sid_ <;> cases visible_ <;> simp

theorem DenseInfo.decode_of {m : Pb.DenseInfo} {b : Bytes} (h : IsDenseInfo m b) : Pb.DenseInfo.decode b = some m := by
  obtain ⟨fs, hf, h1, h2, h3, h4, h5, h6⟩ := h
  obtain ⟨raw, hp, hr⟩ := parse_of 97 hf
  rw [Pb.DenseInfo.decode, Pb.DenseInfo.merge, hp, Option.bind_some]
  rw [foldlM_by_tags DenseInfo.commutes [1, 2, 3, 4, 5, 6] (by decide) raw (fun _ _ => trivial) (by
    intro f _ hf m
    obtain ⟨t, v⟩ := f
    simp only [Pb.DenseInfo.step]
    split <;> first | rfl | exact absurd (by simp) hf) {}]
  simp only [List.flatMap_cons, List.flatMap_nil, List.append_nil, List.foldlM_append]
  rw [seg_repInt hr Int32.toInt toInt32 toInt32_twos m.version h1 (fun x m => { m with version := m.version ++ x }) (fun _ _ => rfl) (fun _ => by simp) (fun _ _ _ => by simp)]
  simp only [Option.bind_eq_bind, Option.bind_some]
  rw [seg_repSint hr Int64.toInt toSInt64 toSInt64_zigzag m.timestamp h2 (fun x m => { m with timestamp := m.timestamp ++ x }) (fun _ _ => rfl) (fun _ => by simp) (fun _ _ _ => by simp)]
  simp only [Option.bind_eq_bind, Option.bind_some]
  rw [seg_repSint hr Int64.toInt toSInt64 toSInt64_zigzag m.changeset h3 (fun x m => { m with changeset := m.changeset ++ x }) (fun _ _ => rfl) (fun _ => by simp) (fun _ _ _ => by simp)]
  simp only [Option.bind_eq_bind, Option.bind_some]
  rw [seg_repSint hr Int32.toInt toSInt32 toSInt32_zigzag m.uid h4 (fun x m => { m with uid := m.uid ++ x }) (fun _ _ => rfl) (fun _ => by simp) (fun _ _ _ => by simp)]
  simp only [Option.bind_eq_bind, Option.bind_some]
  rw [seg_repSint hr Int32.toInt toSInt32 toSInt32_zigzag m.user_sid h5 (fun x m => { m with user_sid := m.user_sid ++ x }) (fun _ _ => rfl) (fun _ => by simp) (fun _ _ _ => by simp)]
  simp only [Option.bind_eq_bind, Option.bind_some]
  rw [seg_repInt hr bit toBool toBool_twos m.visible h6 (fun x m => { m with visible := m.visible ++ x }) (fun _ _ => rfl) (fun _ => by simp) (fun _ _ _ => by simp)]
  obtain ⟨version_, timestamp_, changeset_, uid_, user_sid_, visible_⟩ := m
  simp

theorem ChangeSet.decode_of {m : Pb.ChangeSet} {b : Bytes} (h : IsChangeSet m b) : Pb.ChangeSet.decode b = some m := by
  obtain ⟨fs, hf, h1⟩ := h
  obtain ⟨raw, hp, hr⟩ := parse_of 98 hf
  rw [Pb.ChangeSet.decode, Pb.ChangeSet.merge, hp, Option.bind_some]
  rw [foldlM_by_tags ChangeSet.commutes [1] (by decide) raw (fun _ _ => trivial) (by
    intro f _ hf m
    obtain ⟨t, v⟩ := f
    simp only [Pb.ChangeSet.step]
    split <;> first | rfl | exact absurd (by simp) hf) {}]
  simp only [List.flatMap_cons, List.flatMap_nil, List.append_nil, List.foldlM_append]
  rw [seg_optInt hr Int64.toInt toInt64 toInt64_twos (some m.id) h1 (fun x m => { m with id := x }) (fun _ _ => rfl) (fun _ _ _ => rfl)]
  obtain ⟨id_⟩ := m
  simp

theorem Node.decode_of {m : Pb.Node} {b : Bytes} (h : IsNode m b) : Pb.Node.decode b = some m := by
  obtain ⟨fs, hf, h1, h2, h3, h4, h8, h9⟩ := h
  obtain ⟨raw, hp, hr⟩ := parse_of 98 hf
  rw [Pb.Node.decode, Pb.Node.merge, hp, Option.bind_some]
  rw [foldlM_by_tags Node.commutes [1, 2, 3, 4, 8, 9] (by decide) raw (fun _ _ => trivial) (by
    intro f _ hf m
    obtain ⟨t, v⟩ := f
    simp only [Pb.Node.step]
    split <;> first | rfl | exact absurd (by simp) hf) {}]
  simp only [List.flatMap_cons, List.flatMap_nil, List.append_nil, List.foldlM_append]
  rw [seg_reqSint hr Int64.toInt toSInt64 toSInt64_zigzag m.id h1 (fun x m => { m with id := x }) (fun _ _ => rfl) (fun _ _ _ => rfl)]
  simp only [Option.bind_eq_bind, Option.bind_some]
  rw [seg_repInt hr (fun x => (UInt32.toNat x : ℤ)) toUInt32 toUInt32_twos m.keys h2 (fun x m => { m with keys := m.keys ++ x }) (fun _ _ => rfl) (fun _ => by simp) (fun _ _ _ => by simp)]
  simp only [Option.bind_eq_bind, Option.bind_some]
  rw [seg_repInt hr (fun x => (UInt32.toNat x : ℤ)) toUInt32 toUInt32_twos m.vals h3 (fun x m => { m with vals := m.vals ++ x }) (fun _ _ => rfl) (fun _ => by simp) (fun _ _ _ => by simp)]
  simp only [Option.bind_eq_bind, Option.bind_some]
  rw [seg_optMsg hr IsInfo m.info h4 (fun x m => { m with info := some x }) _ (fun x b h => by show Option.map _ (Pb.Info.decode b) = _; rw [Info.decode_of h]; rfl)]
  simp only [Option.bind_eq_bind, Option.bind_some]
  rw [seg_reqSint hr Int64.toInt toSInt64 toSInt64_zigzag m.lat h8 (fun x m => { m with lat := x }) (fun _ _ => rfl) (fun _ _ _ => rfl)]
  simp only [Option.bind_eq_bind, Option.bind_some]
  rw [seg_reqSint hr Int64.toInt toSInt64 toSInt64_zigzag m.lon h9 (fun x m => { m with lon := x }) (fun _ _ => rfl) (fun _ _ _ => rfl)]
  obtain ⟨id_, keys_, vals_, info_, lat_, lon_⟩ := m
  cases info_ <;> simp

theorem DenseNodes.decode_of {m : Pb.DenseNodes} {b : Bytes} (h : IsDenseNodes m b) : Pb.DenseNodes.decode b = some m := by
  obtain ⟨fs, hf, h1, h5, h8, h9, h10⟩ := h
  obtain ⟨raw, hp, hr⟩ := parse_of 98 hf
  rw [Pb.DenseNodes.decode, Pb.DenseNodes.merge, hp, Option.bind_some]
  rw [foldlM_by_tags DenseNodes.commutes [1, 5, 8, 9, 10] (by decide) raw (fun _ _ => trivial) (by
    intro f _ hf m
    obtain ⟨t, v⟩ := f
    simp only [Pb.DenseNodes.step]
    split <;> first | rfl | exact absurd (by simp) hf) {}]
  simp only [List.flatMap_cons, List.flatMap_nil, List.append_nil, List.foldlM_append]
  rw [seg_repSint hr Int64.toInt toSInt64 toSInt64_zigzag m.id h1 (fun x m => { m with id := m.id ++ x }) (fun _ _ => rfl) (fun _ => by simp) (fun _ _ _ => by simp)]
  simp only [Option.bind_eq_bind, Option.bind_some]
  rw [seg_optMsg hr IsDenseInfo m.denseinfo h5 (fun x m => { m with denseinfo := some x }) _ (fun x b h => by show Option.map _ (Pb.DenseInfo.decode b) = _; rw [DenseInfo.decode_of h]; rfl)]
  simp only [Option.bind_eq_bind, Option.bind_some]
  rw [seg_repSint hr Int64.toInt toSInt64 toSInt64_zigzag m.lat h8 (fun x m => { m with lat := m.lat ++ x }) (fun _ _ => rfl) (fun _ => by simp) (fun _ _ _ => by simp)]
  simp only [Option.bind_eq_bind, Option.bind_some]
  rw [seg_repSint hr Int64.toInt toSInt64 toSInt64_zigzag m.lon h9 (fun x m => { m with lon := m.lon ++ x }) (fun _ _ => rfl) (fun _ => by simp) (fun _ _ _ => by simp)]
  simp only [Option.bind_eq_bind, Option.bind_some]
  rw [seg_repInt hr Int32.toInt toInt32 toInt32_twos m.keys_vals h10 (fun x m => { m with keys_vals := m.keys_vals ++ x }) (fun _ _ => rfl) (fun _ => by simp) (fun _ _ _ => by simp)]
  obtain ⟨id_, denseinfo_, lat_, lon_, keys_vals_⟩ := m
  cases denseinfo_ <;> simp

theorem Way.decode_of {m : Pb.Way} {b : Bytes} (h : IsWay m b) : Pb.Way.decode b = some m := by
  obtain ⟨fs, hf, h1, h2, h3, h4, h8, h9, h10⟩ := h
  obtain ⟨raw, hp, hr⟩ := parse_of 98 hf
  rw [Pb.Way.decode, Pb.Way.merge, hp, Option.bind_some]
  rw [foldlM_by_tags Way.commutes [1, 2, 3, 4, 8, 9, 10] (by decide) raw (fun _ _ => trivial) (by
    intro f _ hf m
    obtain ⟨t, v⟩ := f
    simp only [Pb.Way.step]
    split <;> first | rfl | exact absurd (by simp) hf) {}]
  simp only [List.flatMap_cons, List.flatMap_nil, List.append_nil, List.foldlM_append]
  rw [seg_optInt hr Int64.toInt toInt64 toInt64_twos (some m.id) h1 (fun x m => { m with id := x }) (fun _ _ => rfl) (fun _ _ _ => rfl)]
  simp only [Option.bind_eq_bind, Option.bind_some]
  rw [seg_repInt hr (fun x => (UInt32.toNat x : ℤ)) toUInt32 toUInt32_twos m.keys h2 (fun x m => { m with keys := m.keys ++ x }) (fun _ _ => rfl) (fun _ => by simp) (fun _ _ _ => by simp)]
  simp only [Option.bind_eq_bind, Option.bind_some]
  rw [seg_repInt hr (fun x => (UInt32.toNat x : ℤ)) toUInt32 toUInt32_twos m.vals h3 (fun x m => { m with vals := m.vals ++ x }) (fun _ _ => rfl) (fun _ => by simp) (fun _ _ _ => by simp)]
  simp only [Option.bind_eq_bind, Option.bind_some]
  rw [seg_optMsg hr IsInfo m.info h4 (fun x m => { m with info := some x }) _ (fun x b h => by show Option.map _ (Pb.Info.decode b) = _; rw [Info.decode_of h]; rfl)]
  simp only [Option.bind_eq_bind, Option.bind_some]
  rw [seg_repSint hr Int64.toInt toSInt64 toSInt64_zigzag m.refs h8 (fun x m => { m with refs := m.refs ++ x }) (fun _ _ => rfl) (fun _ => by simp) (fun _ _ _ => by simp)]
  simp only [Option.bind_eq_bind, Option.bind_some]
  rw [seg_repSint hr Int64.toInt toSInt64 toSInt64_zigzag m.lat h9 (fun x m => { m with lat := m.lat ++ x }) (fun _ _ => rfl) (fun _ => by simp) (fun _ _ _ => by simp)]
  simp only [Option.bind_eq_bind, Option.bind_some]
  rw [seg_repSint hr Int64.toInt toSInt64 toSInt64_zigzag m.lon h10 (fun x m => { m with lon := m.lon ++ x }) (fun _ _ => rfl) (fun _ => by simp) (fun _ _ _ => by simp)]
  obtain ⟨id_, keys_, vals_, info_, refs_, lat_, lon_⟩ := m
  cases info_ <;> simp

theorem Relation.decode_of {m : Pb.Relation} {b : Bytes} (h : IsRelation m b) : Pb.Relation.decode b = some m := by
  obtain ⟨fs, hf, h1, h2, h3, h4, h8, h9, h10⟩ := h
  obtain ⟨raw, hp, hr⟩ := parse_of 98 hf
  rw [Pb.Relation.decode, Pb.Relation.merge, hp, Option.bind_some]
  rw [foldlM_by_tags Relation.commutes [1, 2, 3, 4, 8, 9, 10] (by decide) raw (fun _ _ => trivial) (by
    intro f _ hf m
    obtain ⟨t, v⟩ := f
    simp only [Pb.Relation.step]
    split <;> first | rfl | exact absurd (by simp) hf) {}]
  simp only [List.flatMap_cons, List.flatMap_nil, List.append_nil, List.foldlM_append]
  rw [seg_optInt hr Int64.toInt toInt64 toInt64_twos (some m.id) h1 (fun x m => { m with id := x }) (fun _ _ => rfl) (fun _ _ _ => rfl)]
  simp only [Option.bind_eq_bind, Option.bind_some]
  rw [seg_repInt hr (fun x => (UInt32.toNat x : ℤ)) toUInt32 toUInt32_twos m.keys h2 (fun x m => { m with keys := m.keys ++ x }) (fun _ _ => rfl) (fun _ => by simp) (fun _ _ _ => by simp)]
  simp only [Option.bind_eq_bind, Option.bind_some]
  rw [seg_repInt hr (fun x => (UInt32.toNat x : ℤ)) toUInt32 toUInt32_twos m.vals h3 (fun x m => { m with vals := m.vals ++ x }) (fun _ _ => rfl) (fun _ => by simp) (fun _ _ _ => by simp)]
  simp only [Option.bind_eq_bind, Option.bind_some]
  rw [seg_optMsg hr IsInfo m.info h4 (fun x m => { m with info := some x }) _ (fun x b h => by show Option.map _ (Pb.Info.decode b) = _; rw [Info.decode_of h]; rfl)]
  simp only [Option.bind_eq_bind, Option.bind_some]
  rw [seg_repInt hr Int32.toInt toInt32 toInt32_twos m.roles_sid h8 (fun x m => { m with roles_sid := m.roles_sid ++ x }) (fun _ _ => rfl) (fun _ => by simp) (fun _ _ _ => by simp)]
  simp only [Option.bind_eq_bind, Option.bind_some]
  rw [seg_repSint hr Int64.toInt toSInt64 toSInt64_zigzag m.memids h9 (fun x m => { m with memids := m.memids ++ x }) (fun _ _ => rfl) (fun _ => by simp) (fun _ _ _ => by simp)]
  simp only [Option.bind_eq_bind, Option.bind_some]
  rw [seg_repInt hr Int32.toInt toInt32 toInt32_twos m.types h10 (fun x m => { m with types := m.types ++ x }) (fun _ _ => rfl) (fun _ => by simp) (fun _ _ _ => by simp)]
  obtain ⟨id_, keys_, vals_, info_, roles_sid_, memids_, types_⟩ := m
  cases info_ <;> simp

theorem PrimitiveGroup.decode_of {m : Pb.PrimitiveGroup} {b : Bytes} (h : IsPrimitiveGroup m b) : Pb.PrimitiveGroup.decode b = some m := by
  obtain ⟨fs, hf, h1, h2, h3, h4, h5⟩ := h
  obtain ⟨raw, hp, hr⟩ := parse_of 99 hf
  rw [Pb.PrimitiveGroup.decode, Pb.PrimitiveGroup.merge, hp, Option.bind_some]
  rw [foldlM_by_tags PrimitiveGroup.commutes [1, 2, 3, 4, 5] (by decide) raw (fun _ _ => trivial) (by
    intro f _ hf m
    obtain ⟨t, v⟩ := f
    simp only [Pb.PrimitiveGroup.step]
    split <;> first | rfl | exact absurd (by simp) hf) {}]
  simp only [List.flatMap_cons, List.flatMap_nil, List.append_nil, List.foldlM_append]
  rw [seg_repMsg hr IsNode m.nodes h1 (fun x m => { m with nodes := m.nodes ++ x }) (fun a x b h => by show Option.map _ (Pb.Node.decode b) = _; rw [Node.decode_of h]; rfl) (fun _ => by simp) (fun _ _ _ => by simp)]
  simp only [Option.bind_eq_bind, Option.bind_some]
  rw [seg_optMsg hr IsDenseNodes m.dense h2 (fun x m => { m with dense := some x }) _ (fun x b h => by show Option.map _ (Pb.DenseNodes.decode b) = _; rw [DenseNodes.decode_of h]; rfl)]
  simp only [Option.bind_eq_bind, Option.bind_some]
  rw [seg_repMsg hr IsWay m.ways h3 (fun x m => { m with ways := m.ways ++ x }) (fun a x b h => by show Option.map _ (Pb.Way.decode b) = _; rw [Way.decode_of h]; rfl) (fun _ => by simp) (fun _ _ _ => by simp)]
  simp only [Option.bind_eq_bind, Option.bind_some]
  rw [seg_repMsg hr IsRelation m.relations h4 (fun x m => { m with relations := m.relations ++ x }) (fun a x b h => by show Option.map _ (Pb.Relation.decode b) = _; rw [Relation.decode_of h]; rfl) (fun _ => by simp) (fun _ _ _ => by simp)]
  simp only [Option.bind_eq_bind, Option.bind_some]
  rw [seg_repMsg hr IsChangeSet m.changesets h5 (fun x m => { m with changesets := m.changesets ++ x }) (fun a x b h => by show Option.map _ (Pb.ChangeSet.decode b) = _; rw [ChangeSet.decode_of h]; rfl) (fun _ => by simp) (fun _ _ _ => by simp)]
  obtain ⟨nodes_, dense_, ways_, relations_, changesets_⟩ := m
  cases dense_ <;> simp

theorem PrimitiveBlock.decode_of {m : Pb.PrimitiveBlock} {b : Bytes} (h : IsPrimitiveBlock m b) : Pb.PrimitiveBlock.decode b = some m := by
  obtain ⟨fs, hf, h1, h2, h17, h18, h19, h20⟩ := h
  obtain ⟨raw, hp, hr⟩ := parse_of 100 hf
  rw [Pb.PrimitiveBlock.decode, Pb.PrimitiveBlock.merge, hp, Option.bind_some]
  rw [foldlM_by_tags PrimitiveBlock.commutes [1, 2, 17, 18, 19, 20] (by decide) raw (fun _ _ => trivial) (by
    intro f _ hf m
    obtain ⟨t, v⟩ := f
    simp only [Pb.PrimitiveBlock.step]
    split <;> first | rfl | exact absurd (by simp) hf) {}]
  simp only [List.flatMap_cons, List.flatMap_nil, List.append_nil, List.foldlM_append]
  rw [seg_optMsg hr IsStringTable (some m.stringtable) h1 (fun x m => { m with stringtable := x }) _ (fun x b h => by show Option.map _ (Pb.StringTable.decode b) = _; rw [StringTable.decode_of h]; rfl)]
  simp only [Option.bind_eq_bind, Option.bind_some]
  rw [seg_repMsg hr IsPrimitiveGroup m.primitivegroup h2 (fun x m => { m with primitivegroup := m.primitivegroup ++ x }) (fun a x b h => by show Option.map _ (Pb.PrimitiveGroup.decode b) = _; rw [PrimitiveGroup.decode_of h]; rfl) (fun _ => by simp) (fun _ _ _ => by simp)]
  simp only [Option.bind_eq_bind, Option.bind_some]
  rw [seg_optInt hr Int32.toInt toInt32 toInt32_twos m.granularity h17 (fun x m => { m with granularity := some x }) (fun _ _ => rfl) (fun _ _ _ => rfl)]
  simp only [Option.bind_eq_bind, Option.bind_some]
  rw [seg_optInt hr Int32.toInt toInt32 toInt32_twos m.date_granularity h18 (fun x m => { m with date_granularity := some x }) (fun _ _ => rfl) (fun _ _ _ => rfl)]
  simp only [Option.bind_eq_bind, Option.bind_some]
  rw [seg_optInt hr Int64.toInt toInt64 toInt64_twos m.lat_offset h19 (fun x m => { m with lat_offset := some x }) (fun _ _ => rfl) (fun _ _ _ => rfl)]
  simp only [Option.bind_eq_bind, Option.bind_some]
  rw [seg_optInt hr Int64.toInt toInt64 toInt64_twos m.lon_offset h20 (fun x m => { m with lon_offset := some x }) (fun _ _ => rfl) (fun _ _ _ => rfl)]
  obtain ⟨stringtable_, primitivegroup_, granularity_, date_granularity_, lat_offset_, lon_offset_⟩ := m
  cases granularity_ <;> cases date_granularity_ <;> cases lat_offset_ <;> cases lon_offset_ <;> simp

theorem HeaderBBox.decode_of {m : Pb.HeaderBBox} {b : Bytes} (h : IsHeaderBBox m b) : Pb.HeaderBBox.decode b = some m := by
  obtain ⟨fs, hf, h1, h2, h3, h4⟩ := h
  obtain ⟨raw, hp, hr⟩ := parse_of 99 hf
  rw [Pb.HeaderBBox.decode, Pb.HeaderBBox.merge, hp, Option.bind_some]
  rw [foldlM_by_tags HeaderBBox.commutes [1, 2, 3, 4] (by decide) raw (fun _ _ => trivial) (by
    intro f _ hf m
    obtain ⟨t, v⟩ := f
    simp only [Pb.HeaderBBox.step]
    split <;> first | rfl | exact absurd (by simp) hf) {}]
  simp only [List.flatMap_cons, List.flatMap_nil, List.append_nil, List.foldlM_append]
  rw [seg_reqSint hr Int64.toInt toSInt64 toSInt64_zigzag m.left h1 (fun x m => { m with left := x }) (fun _ _ => rfl) (fun _ _ _ => rfl)]
  simp only [Option.bind_eq_bind, Option.bind_some]
  rw [seg_reqSint hr Int64.toInt toSInt64 toSInt64_zigzag m.right h2 (fun x m => { m with right := x }) (fun _ _ => rfl) (fun _ _ _ => rfl)]
  simp only [Option.bind_eq_bind, Option.bind_some]
  rw [seg_reqSint hr Int64.toInt toSInt64 toSInt64_zigzag m.top h3 (fun x m => { m with top := x }) (fun _ _ => rfl) (fun _ _ _ => rfl)]
  simp only [Option.bind_eq_bind, Option.bind_some]
  rw [seg_reqSint hr Int64.toInt toSInt64 toSInt64_zigzag m.bottom h4 (fun x m => { m with bottom := x }) (fun _ _ => rfl) (fun _ _ _ => rfl)]

theorem HeaderBlock.decode_of {m : Pb.HeaderBlock} {b : Bytes} (h : IsHeaderBlock m b) : Pb.HeaderBlock.decode b = some m := by
  obtain ⟨fs, hf, h1, h4, h5, h16, h17, h32, h33, h34⟩ := h
  obtain ⟨raw, hp, hr⟩ := parse_of 100 hf
  rw [Pb.HeaderBlock.decode, Pb.HeaderBlock.merge, hp, Option.bind_some]
  rw [foldlM_by_tags HeaderBlock.commutes [1, 4, 5, 16, 17, 32, 33, 34] (by decide) raw (fun _ _ => trivial) (by
    intro f _ hf m
    obtain ⟨t, v⟩ := f
    simp only [Pb.HeaderBlock.step]
    split <;> first | rfl | exact absurd (by simp) hf) {}]
  simp only [List.flatMap_cons, List.flatMap_nil, List.append_nil, List.foldlM_append]
  rw [seg_optMsg hr IsHeaderBBox m.bbox h1 (fun x m => { m with bbox := some x }) _ (fun x b h => by show Option.map _ (Pb.HeaderBBox.decode b) = _; rw [HeaderBBox.decode_of h]; rfl)]
  simp only [Option.bind_eq_bind, Option.bind_some]
  rw [seg_repBytes hr (m.required_features.map utf8) m.required_features (fun x b => b = utf8 x) (show _ = _ by rw [h4, List.map_map]; rfl) (forall₂_utf8 _) (fun x m => { m with required_features := m.required_features ++ x }) (fun a x b h => by subst h; show Option.map _ (strOf (strBytes x)) = _; rw [strOf_strBytes]; rfl) (fun _ => by simp) (fun _ _ _ => by simp)]
  simp only [Option.bind_eq_bind, Option.bind_some]
  rw [seg_repBytes hr (m.optional_features.map utf8) m.optional_features (fun x b => b = utf8 x) (show _ = _ by rw [h5, List.map_map]; rfl) (forall₂_utf8 _) (fun x m => { m with optional_features := m.optional_features ++ x }) (fun a x b h => by subst h; show Option.map _ (strOf (strBytes x)) = _; rw [strOf_strBytes]; rfl) (fun _ => by simp) (fun _ _ _ => by simp)]
  simp only [Option.bind_eq_bind, Option.bind_some]
  rw [seg_optStr hr m.writingprogram h16 (fun x m => { m with writingprogram := some x }) (fun _ _ => rfl) (fun _ _ _ => rfl)]
  simp only [Option.bind_eq_bind, Option.bind_some]
  rw [seg_optStr hr m.source h17 (fun x m => { m with source := some x }) (fun _ _ => rfl) (fun _ _ _ => rfl)]
  simp only [Option.bind_eq_bind, Option.bind_some]
  rw [seg_optInt hr Int64.toInt toInt64 toInt64_twos m.osmosis_replication_timestamp h32 (fun x m => { m with osmosis_replication_timestamp := some x }) (fun _ _ => rfl) (fun _ _ _ => rfl)]
  simp only [Option.bind_eq_bind, Option.bind_some]
  rw [seg_optInt hr Int64.toInt toInt64 toInt64_twos m.osmosis_replication_sequence_number h33 (fun x m => { m with osmosis_replication_sequence_number := some x }) (fun _ _ => rfl) (fun _ _ _ => rfl)]
  simp only [Option.bind_eq_bind, Option.bind_some]
  rw [seg_optStr hr m.osmosis_replication_base_url h34 (fun x m => { m with osmosis_replication_base_url := some x }) (fun _ _ => rfl) (fun _ _ _ => rfl)]
  obtain ⟨bbox_, required_features_, optional_features_, writingprogram_, source_, osmosis_replication_timestamp_, osmosis_replication_sequence_number_, osmosis_replication_base_url_⟩ := m
  cases bbox_ <;> cases writingprogram_ <;> cases source_ <;> cases osmosis_replication_timestamp_ <;> cases osmosis_replication_sequence_number_ <;> cases osmosis_replication_base_url_ <;> simp

theorem BlobHeader.decode_of {m : Pb.BlobHeader} {b : Bytes} (h : IsBlobHeader m b) : Pb.BlobHeader.decode b = some m := by
  obtain ⟨fs, hf, h1, h2, h3⟩ := h
  obtain ⟨raw, hp, hr⟩ := parse_of 100 hf
  rw [Pb.BlobHeader.decode, Pb.BlobHeader.merge, hp, Option.bind_some]
  rw [foldlM_by_tags BlobHeader.commutes [1, 2, 3] (by decide) raw (fun _ _ => trivial) (by
    intro f _ hf m
    obtain ⟨t, v⟩ := f
    simp only [Pb.BlobHeader.step]
    split <;> first | rfl | exact absurd (by simp) hf) {}]
  simp only [List.flatMap_cons, List.flatMap_nil, List.append_nil, List.foldlM_append]
  rw [seg_optStr hr (some m.type) h1 (fun x m => { m with type := x }) (fun _ _ => rfl) (fun _ _ _ => rfl)]
  simp only [Option.bind_eq_bind, Option.bind_some]
  rw [seg_optBytes hr m.indexdata h2 (fun x m => { m with indexdata := some x }) (fun _ _ => rfl) (fun _ _ _ => rfl)]
  simp only [Option.bind_eq_bind, Option.bind_some]
  rw [seg_optInt hr Int32.toInt toInt32 toInt32_twos (some m.datasize) h3 (fun x m => { m with datasize := x }) (fun _ _ => rfl) (fun _ _ _ => rfl)]
  obtain ⟨type_, indexdata_, datasize_⟩ := m
  cases indexdata_ <;> simp

end OsmIo
