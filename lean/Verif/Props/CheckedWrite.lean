import Verif.Props.Checked
import Verif.Props.Block
import Verif.Props.Format
import Verif.Lemmas.ProtobufWrite
/-!
# C85: writing in builds with and without overflow checks
-/
namespace OsmIo
open Wire Spec Spec.Protobuf Spec.Format

/-! ## The same bytes, or a panic -/

theorem deltas_same (last : Int64) (rs : List Int64) : SameOrPanic (deltasChecked last rs) (.ok (deltas last rs)) := by
  induction rs generalizing last with
  | nil => exact .refl _
  | cons r rs ih => exact (sub64_same r last).step ((ih _).step (.refl _))

theorem add_same (b : DenseGroupBuilder) (n : Node) (st : StringTableBuilder) : SameOrPanic (b.addChecked n st) (.ok (b.add n st)) := by
  unfold DenseGroupBuilder.addChecked
  refine (sub64_same _ _).step ((sub64_same _ _).step ((sub64_same _ _).step ((sub64_same _ _).step ((sub32_same _ _).step ((sub64_same _ _).step ?_)))))
  exact (sub32_same _ _).step (.refl _)

theorem step_same (s : SerState) (e : Element) : SameOrPanic (s.stepChecked e) (.ok (s.step e)) := by
  cases e with
  | node n =>
    unfold SerState.stepChecked SerState.step
    cases s.dense with
    | none => exact .refl _
    | some d => exact (add_same d n s.st).step (.refl _)
  | way w => exact SameOrPanic.step ((deltas_same 0 w.refs).step (.refl _)) (.refl _)
  | relation r => exact SameOrPanic.step ((deltas_same 0 (r.members.map Member.id)).step (.refl _)) (.refl _)
  | sentinel => exact .refl _

theorem fold_same (s : SerState) (es : List Element) : SameOrPanic (es.foldlM SerState.stepChecked s) (.ok (es.foldl SerState.step s)) := by
  induction es generalizing s with
  | nil => exact .refl _
  | cons e es ih => rw [List.foldlM_cons]; exact (step_same s e).step (ih _)

/-- C85. A build with overflow checks writes the bytes a build without them writes, or panics. -/
theorem C85_write_same (es : List Element) : serializeDataChecked es = .ok (serializeData es) ∨ serializeDataChecked es = .panic :=
  (fold_same _ es).step (.refl _)

/-! ## When it panics -/

theorem sub64_decides (a b : Int64) : Decides (sub64 a b) (Fits64 (a.toInt - b.toInt)) fun c => c = a - b := by
  unfold sub64
  split
  · next h => rw [fits64_iff] at h; exact .ok h rfl
  · next h => rw [fits64_iff] at h; exact .inr ⟨h, rfl⟩

theorem sub32_decides (a b : Int32) : Decides (sub32 a b) (Fits32 (a.toInt - b.toInt)) fun c => c = a - b := by
  unfold sub32
  split
  · next h => rw [fits32_iff] at h; exact .ok h rfl
  · next h => rw [fits32_iff] at h; exact .inr ⟨h, rfl⟩

theorem deltas_decides (last : Int64) (rs : List Int64) :
    Decides (deltasChecked last rs) (RefSteps (last :: rs)) fun ds => ds = deltas last rs := by
  induction rs generalizing last with
  | nil => exact .ok (by simp [RefSteps]) rfl
  | cons r rs ih =>
    unfold deltasChecked
    refine (sub64_decides r last).bind (D := RefSteps (r :: rs)) (fun d hd _ _ => ?_) (by simp only [RefSteps, List.isChain_cons_cons])
    exact (ih r).bind (D := True) (fun ds hds _ _ => .ok trivial (by rw [hd, hds]; rfl)) (by simp [RefSteps])

theorem steps_snoc_node (es : List Element) (n : Node) :
    Steps (es ++ [.node n]) ↔ Steps es ∧ ∀ m, (nodesOf es).getLast? = some m → NodeStep m n := by
  have e : ∀ es : List Element, Steps es ↔ (nodesOf es).IsChain NodeStep ∧ (∀ w, .way w ∈ es → RefSteps w.refs) ∧
      ∀ r, .relation r ∈ es → RefSteps (r.members.map fun m => (memberParts m).2.1) := fun _ => Iff.rfl
  rw [e, e, show nodesOf (es ++ [.node n]) = nodesOf es ++ [n] by simp [nodesOf], List.isChain_append]
  simp only [List.isChain_singleton, List.head?_cons, Option.mem_def, List.mem_append, List.mem_singleton, reduceCtorEq, or_false, Option.some.injEq, true_and, forall_eq']
  tauto

theorem steps_snoc_way (es : List Element) (w : Way) : Steps (es ++ [.way w]) ↔ Steps es ∧ RefSteps w.refs := by
  unfold Steps
  simp only [List.filterMap_append, List.filterMap_cons, List.filterMap_nil, List.append_nil, List.mem_append, List.mem_singleton, reduceCtorEq, or_false,
    Element.way.injEq, or_imp, forall_and, forall_eq]
  tauto

theorem steps_snoc_relation (es : List Element) (r : Relation) :
    Steps (es ++ [.relation r]) ↔ Steps es ∧ RefSteps (r.members.map fun m => (memberParts m).2.1) := by
  unfold Steps
  simp only [List.filterMap_append, List.filterMap_cons, List.filterMap_nil, List.append_nil, List.mem_append, List.mem_singleton, reduceCtorEq, or_false,
    Element.relation.injEq, or_imp, forall_and, forall_eq]
  tauto

theorem steps_snoc_sentinel (es : List Element) : Steps (es ++ [.sentinel]) ↔ Steps es := by
  unfold Steps
  simp only [List.filterMap_append, List.filterMap_cons, List.filterMap_nil, List.append_nil, List.mem_append, List.mem_singleton, reduceCtorEq, or_false]

theorem getLastD_map {α β : Type} (f : α → β) (d : β) (l : List α) {m : α} (h : l.getLast? = some m) : (l.map f).getLastD d = f m := by
  rw [List.getLastD_eq_getLast?, List.getLast?_map, h]; rfl

theorem memberIds (ms : List Member) : ms.map Member.id = ms.map fun m => (memberParts m).2.1 := by
  apply List.map_congr_left
  intro m _
  cases m <;> rfl

/-- One element more. -/
theorem stepChecked_decides {s : SerState} {es : List Element} (h : SerInv s es) (e : Element) (hr : ∀ x ∈ es ++ [e], InRange x)
    (ht : (s.step e).st.table.length < 2 ^ 31) (hs : Steps es) : Decides (s.stepChecked e) (Steps (es ++ [e])) fun s' => s' = s.step e := by
  cases e with
  | sentinel => exact .ok ((steps_snoc_sentinel es).2 hs) rfl
  | way w =>
    unfold SerState.stepChecked convertWayChecked
    refine Decides.bind (C := RefSteps w.refs) (D := True) (P := fun r => r = convertWay 1000 w s.st) ?_ (fun r hr _ _ => .ok trivial (by rw [hr]; rfl)) (by rw [steps_snoc_way]; tauto)
    refine ((deltas_decides 0 w.refs).congr (refSteps_zero _).symm).bind (D := True) (fun ds hds _ _ => .ok trivial (by rw [hds]; rfl)) (by simp)
  | relation r =>
    unfold SerState.stepChecked convertRelationChecked
    refine Decides.bind (C := RefSteps (r.members.map fun m => (memberParts m).2.1)) (D := True) (P := fun x => x = convertRelation 1000 r s.st) ?_
      (fun x hx _ _ => .ok trivial (by rw [hx]; rfl)) (by rw [steps_snoc_relation]; tauto)
    refine ((deltas_decides 0 (r.members.map Member.id)).congr (refSteps_zero _).symm).bind (D := True) (fun ds hds _ _ => .ok trivial (by rw [hds]; rfl)) (by rw [memberIds]; simp)
  | node n =>
    rw [steps_snoc_node]
    unfold SerState.stepChecked
    rcases h.dense with ⟨h1, h2⟩ | ⟨h1, rs, h2, h3⟩
    · rw [h2]
      exact .ok ⟨hs, by simp [h1]⟩ rfl
    · rw [h3]
      obtain ⟨m, hm⟩ : ∃ m, (nodesOf es).getLast? = some m := by
        rw [← Option.isSome_iff_exists]; simp [h1]
      have hmm : m ∈ nodesOf es := List.mem_of_getLast? hm
      have hme : Element.node m ∈ es := by
        simp only [nodesOf, List.mem_filterMap] at hmm
        obtain ⟨e, he, hem⟩ := hmm
        cases e <;> simp at hem
        rw [← hem]; exact he
      have rm := hr (.node m) (by simp [hme])
      have rn := hr (.node n) (by simp)
      -- the parts that always fit
      have co (a b : F64) (ha : |a| ≤ 360) (hb : |b| ≤ 360) : Fits64 ((encodeCoord 100 0 a).toInt - (encodeCoord 100 0 b).toInt) := by
        have h1 := (coord_written ha).1
        have h2 := (coord_written hb).1
        rw [abs_lt] at h1 h2
        unfold Fits64; omega
      have ti (a b : Int64) : Fits64 ((a / (1000 : Int32).toInt64).toInt - (b / (1000 : Int32).toInt64).toInt) := by
        have e1 := quantTime_toInt a
        have e2 := (quantTime a).le_toInt
        have e3 := (quantTime a).toInt_lt
        have e1' := quantTime_toInt b
        have e2' := (quantTime b).le_toInt
        have e3' := (quantTime b).toInt_lt
        unfold Fits64; omega
      have si {st : StringTableBuilder} (h : STInv st) (u : String) (hb : (st.add u).2.table.length < 2 ^ 31) : 0 ≤ (st.add u).1.toInt := by
        obtain ⟨_, _, k, k0, k1, k2⟩ := add_spec st u h
        have : k < (st.add u).2.table.length := (List.getElem?_eq_some_iff.1 k2).1
        rw [k1, Int32.toInt_ofNat_of_lt (by omega)]; omega
      have est : (s.step (.node n)).st = ((s.st.add n.user).2.addTags n.tags).2 := by
        unfold SerState.step; rw [h3]; rfl
      rw [est] at ht
      obtain ⟨ia, pa, da⟩ := add_spec s.st n.user h.st
      obtain ⟨ib, pb, db⟩ := addTags_spec (s.st.add n.user).2 n.tags ia
      have hb1 : (s.st.add n.user).2.table.length < 2 ^ 31 := lt_of_le_of_lt pb.length_le ht
      have s1 : 0 ≤ (s.st.add n.user).1.toInt := si h.st _ hb1
      have s2 : 0 ≤ ((rs.map fun r : DRow => r.1).getLastD 0).toInt := by
        rw [List.getLastD_eq_getLast?, List.getLast?_map]
        cases hl : rs.getLast? with
        | none => decide
        | some r =>
          have hrm : r ∈ rs := List.mem_of_getLast? hl
          obtain ⟨j, hj, rfl⟩ := List.mem_iff_getElem.1 hrm
          obtain ⟨k, k0, k1, k2⟩ := (List.Forall₂.get h2 hj (by have := h2.length_eq; omega)).1
          have hk : k < s.st.table.length := (List.getElem?_eq_some_iff.1 k2).1
          have := pa.length_le
          simp only [List.get_eq_getElem] at k1
          show 0 ≤ (rs[j].1).toInt
          rw [k1, Int32.toInt_ofNat_of_lt (by omega)]; omega
      have sf : Fits32 ((s.st.add n.user).1.toInt - ((rs.map fun r : DRow => r.1).getLastD 0).toInt) := by
        have := Int32.toInt_lt (s.st.add n.user).1
        have := Int32.toInt_lt ((rs.map fun r : DRow => r.1).getLastD 0)
        unfold Fits32; omega
      have l1 := getLastD_map (fun n : Node => n.id) 0 _ hm
      have l2 := getLastD_map (fun n : Node => encodeCoord 100 0 n.coordinate.lon) 0 _ hm
      have l3 := getLastD_map (fun n : Node => encodeCoord 100 0 n.coordinate.lat) 0 _ hm
      have l4 := getLastD_map (fun n : Node => n.timestamp / (1000 : Int32).toInt64) 0 _ hm
      have l5 := getLastD_map (fun n : Node => n.uid) 0 _ hm
      have l6 := getLastD_map (fun n : Node => n.changeset) 0 _ hm
      have key : Decides ((denseOf (nodesOf es) rs).addChecked n s.st) (NodeStep m n) fun r => r = (denseOf (nodesOf es) rs).add n s.st := by
        unfold DenseGroupBuilder.addChecked
        refine (sub64_decides _ _).bind (D := Fits64 (n.changeset.toInt - m.changeset.toInt) ∧ Fits32 (n.uid.toInt - m.uid.toInt)) (fun d1 q1 _ _ => ?_)
          (by show _ ↔ Fits64 (n.id.toInt - (((nodesOf es).map fun n : Node => n.id).getLastD 0).toInt) ∧ _; rw [l1]; rfl)
        refine (sub64_decides _ _).bind (D := Fits64 (n.changeset.toInt - m.changeset.toInt) ∧ Fits32 (n.uid.toInt - m.uid.toInt)) (fun d2 q2 _ _ => ?_)
          (by show _ ↔ Fits64 ((encodeCoord 100 0 n.coordinate.lon).toInt - (((nodesOf es).map fun n => encodeCoord 100 0 n.coordinate.lon).getLastD 0).toInt) ∧ _
              rw [l2]; exact (and_iff_right (co _ _ rn.2 rm.2)).symm)
        refine (sub64_decides _ _).bind (D := Fits64 (n.changeset.toInt - m.changeset.toInt) ∧ Fits32 (n.uid.toInt - m.uid.toInt)) (fun d3 q3 _ _ => ?_)
          (by show _ ↔ Fits64 ((encodeCoord 100 0 n.coordinate.lat).toInt - (((nodesOf es).map fun n => encodeCoord 100 0 n.coordinate.lat).getLastD 0).toInt) ∧ _
              rw [l3]; exact (and_iff_right (co _ _ rn.1 rm.1)).symm)
        refine (sub64_decides _ _).bind (D := Fits64 (n.changeset.toInt - m.changeset.toInt) ∧ Fits32 (n.uid.toInt - m.uid.toInt)) (fun d4 q4 _ _ => ?_)
          (by show _ ↔ Fits64 ((n.timestamp / (1000 : Int32).toInt64).toInt - (((nodesOf es).map fun n => n.timestamp / (1000 : Int32).toInt64).getLastD 0).toInt) ∧ _
              rw [l4]; exact (and_iff_right (ti _ _)).symm)
        refine (sub32_decides _ _).bind (D := Fits64 (n.changeset.toInt - m.changeset.toInt)) (fun d5 q5 _ _ => ?_)
          (by show _ ↔ Fits32 (n.uid.toInt - (((nodesOf es).map fun n : Node => n.uid).getLastD 0).toInt) ∧ _; rw [l5]; exact and_comm)
        refine (sub64_decides _ _).bind (D := True) (fun d6 q6 _ _ => ?_)
          (by show _ ↔ Fits64 (n.changeset.toInt - (((nodesOf es).map fun n : Node => n.changeset).getLastD 0).toInt) ∧ _; rw [l6]; exact (and_iff_left trivial).symm)
        dsimp only
        refine (sub32_decides _ _).bind (D := True) (fun d7 q7 _ _ => .ok trivial ?_) (by
          refine ⟨fun _ => ⟨sf, trivial⟩, fun _ => trivial⟩)
        rw [q1, q2, q3, q4, q5, q6, q7]; rfl
      refine key.bind (D := True) (fun r hr' _ _ => .ok trivial ?_) ?_
      · rw [hr']; unfold SerState.step; rw [h3]
      · constructor
        · exact fun h => ⟨h.2 m hm, trivial⟩
        · exact fun h => ⟨hs, fun m' hm' => by rw [hm] at hm'; injection hm' with hm'; rw [← hm']; exact h.1⟩

theorem serFinal_snoc (es : List Element) (e : Element) : serFinal (es ++ [e]) = (serFinal es).step e := by simp [serFinal]

theorem step_table (s : SerState) {es : List Element} (h : SerInv s es) (e : Element) : s.st.table.length ≤ (s.step e).st.table.length := by
  cases e with
  | sentinel => exact le_rfl
  | way w => exact (convertWay_spec w s.st h.st).2.1.length_le
  | relation r => exact (convertRelation_spec r s.st h.st).2.1.length_le
  | node n =>
    obtain ⟨_, p, _⟩ := row_spec n s.st h.st
    have : (s.step (.node n)).st = ((s.st.add n.user).2.addTags n.tags).2 := by
      unfold SerState.step
      cases s.dense with
      | none => rfl
      | some d => rfl
    rw [this]; exact p.length_le

theorem foldChecked_decides (es : List Element) (hr : ∀ e ∈ es, InRange e) (ht : (serFinal es).st.table.length < 2 ^ 31) :
    Decides (es.foldlM SerState.stepChecked ⟨StringTableBuilder.new, none, none, none⟩) (Steps es) fun s => s = serFinal es := by
  induction es using List.reverseRecOn with
  | nil => exact .ok (by simp [Steps]) rfl
  | append_singleton es e ih =>
    rw [serFinal_snoc] at ht
    have ih := ih (fun e he => hr e (by simp [he])) (lt_of_le_of_lt (step_table _ (serFinal_inv es) e) ht)
    rw [List.foldlM_append]
    have hsub : Steps (es ++ [e]) → Steps es := by
      cases e with
      | sentinel => exact (steps_snoc_sentinel es).1
      | way w => exact fun h => ((steps_snoc_way es w).1 h).1
      | relation r => exact fun h => ((steps_snoc_relation es r).1 h).1
      | node n => exact fun h => ((steps_snoc_node es n).1 h).1
    refine ih.bind (D := Steps (es ++ [e])) (fun s hs _ hst => ?_) ⟨fun h => ⟨hsub h, h⟩, fun h => h.2⟩
    subst hs
    rw [List.foldlM_cons, serFinal_snoc]
    refine (stepChecked_decides (serFinal_inv es) e hr ht hst).bind (D := True) (fun s hs _ _ => .ok trivial hs) (by simp)

/-- C85. A build with overflow checks panics on writing a block exactly if some difference between neighbours does not fit. -/
theorem C85_write (es : List Element) (hr : ∀ e ∈ es, InRange e) (hs : (serializeData es).length < 2 ^ 31) :
    (Steps es ∧ serializeDataChecked es = .ok (serializeData es)) ∨ (¬ Steps es ∧ serializeDataChecked es = .panic) := by
  have ht : (serFinal es).st.table.length < 2 ^ 31 := lt_of_le_of_lt (table_length_le (toPrimitiveBlock es)) hs
  rcases foldChecked_decides es hr ht with ⟨h, s, h1, rfl⟩ | ⟨h, h1⟩
  · refine .inl ⟨h, ?_⟩
    unfold serializeDataChecked
    rw [h1]; rfl
  · refine .inr ⟨h, ?_⟩
    unfold serializeDataChecked
    rw [h1]; rfl

/-! ## The condition is needed -/

theorem sum64_step (ds : List Int64) (i : Nat) : Fits64 (sum64 ds (i + 1) - sum64 ds i) := by
  cases h : ds[i + 1]? with
  | some d =>
    have := before64_succ h
    rw [before64_next] at this
    rw [this, show sum64 ds i + d.toInt - sum64 ds i = d.toInt by omega]
    exact fits64_of d
  | none =>
    have : sum64 ds (i + 1) = sum64 ds i := by
      rw [List.getElem?_eq_none_iff] at h
      unfold sum64
      rw [List.take_of_length_le (by omega), List.take_of_length_le h]
    rw [this]; simp [Fits64]

theorem sum32_step (ds : List Int32) (i : Nat) : Fits32 (sum32 ds (i + 1) - sum32 ds i) := by
  cases h : ds[i + 1]? with
  | some d =>
    have := before32_succ h
    rw [before32_next] at this
    rw [this, show sum32 ds i + d.toInt - sum32 ds i = d.toInt by omega]
    exact fits32_of d
  | none =>
    have : sum32 ds (i + 1) = sum32 ds i := by
      rw [List.getElem?_eq_none_iff] at h
      unfold sum32
      rw [List.take_of_length_le (by omega), List.take_of_length_le h]
    rw [this]; simp [Fits32]

theorem chain_of_steps {α : Type} {R : α → α → Prop} {l : List α} (h : ∀ i a b, l[i]? = some a → l[i + 1]? = some b → R a b) : l.IsChain R := by
  induction l with
  | nil => simp
  | cons a l ih =>
    have ih := ih fun i x y hx hy => h (i + 1) x y (by simpa using hx) (by simpa using hy)
    cases l with
    | nil => simp
    | cons b l =>
      rw [List.isChain_cons_cons]
      exact ⟨h 0 a b rfl rfl, ih⟩

theorem dense_steps {p : Pb.PrimitiveBlock} {d : Pb.DenseNodes} {ns : List Node} (h : Dense p d ns) : ns.IsChain NodeStep := by
  obtain ⟨inf, _, hi⟩ := h.info
  refine chain_of_steps fun i a b ha hb => ?_
  refine ⟨?_, ?_, ?_⟩
  · rw [h.id _ _ ha, h.id _ _ hb]; exact sum64_step _ _
  · rw [(hi _ _ ha).changeset.2, (hi _ _ hb).changeset.2]; exact sum64_step _ _
  · rw [(hi _ _ ha).uid.2, (hi _ _ hb).uid.2]; exact sum32_step _ _

theorem group_steps {p : Pb.PrimitiveBlock} {g : Pb.PrimitiveGroup} {es : List Element} (h : Group p g es) (hn : g.nodes = []) : Steps es := by
  obtain ⟨_, dns, ns, ws, rs, rfl, hd, hn', hw, hr⟩ := h
  rw [hn] at hn'
  cases hn'
  have mem {α β : Type} {R : α → β → Prop} {as : List α} {bs : List β} (h : List.Forall₂ R as bs) : ∀ b ∈ bs, ∃ a, R a b := by
    induction h with
    | nil => simp
    | cons h _ ih =>
      intro a ha
      rcases List.mem_cons.1 ha with rfl | ha
      · exact ⟨_, h⟩
      · exact ih a ha
  refine ⟨?_, fun w hw' => ?_, fun r hr' => ?_⟩
  · have e : nodesOf (dns.map Element.node ++ ([] : List Node).map Element.node ++ ws.map Element.way ++ rs.map Element.relation) = dns := by
      simp [nodesOf, List.filterMap_append, List.filterMap_map, Function.comp_def]
    show (nodesOf _).IsChain NodeStep
    rw [e]
    cases hg : g.dense with
    | none => rw [hg] at hd; dsimp only at hd; rw [hd]; simp
    | some d => rw [hg] at hd; exact dense_steps hd
  · obtain ⟨m, hm⟩ := mem hw w (by simpa using hw')
    refine chain_of_steps fun i a b ha hb => ?_
    rw [hm.refs _ _ ha, hm.refs _ _ hb]; exact sum64_step _ _
  · obtain ⟨m, hm⟩ := mem hr r (by simpa using hr')
    refine chain_of_steps fun i a b ha hb => ?_
    rw [List.getElem?_map, Option.map_eq_some_iff] at ha hb
    obtain ⟨x, hx, rfl⟩ := ha
    obtain ⟨y, hy, rfl⟩ := hb
    rw [hm.memids _ _ hx, hm.memids _ _ hy]; exact sum64_step _ _

theorem toPrimitiveBlock_group (es : List Element) : ∃ g, (toPrimitiveBlock es).primitivegroup = [g] ∧ g.nodes = [] := by
  refine ⟨_, rfl, ?_⟩
  split
  · rfl
  · split
    · rfl
    · split <;> rfl

theorem chain_forall₂ {α : Type} {R S : α → α → Prop} {as bs : List α} (h : List.Forall₂ S as bs)
    (hs : ∀ a b a' b', S a a' → S b b' → R a' b' → R a b) : bs.IsChain R → as.IsChain R := by
  induction h with
  | nil => exact fun _ => by simp
  | cons h1 h2 ih =>
    cases h2 with
    | nil => exact fun _ => by simp
    | cons h3 h4 =>
      intro h
      rw [List.isChain_cons_cons] at h ⊢
      exact ⟨hs _ _ _ _ h1 h3 h.1, ih h.2⟩

/-- Rounding keeps the numbers that are stored as differences. -/
theorem steps_rounded {es es' : List Element} (h : List.Forall₂ Rounded es es') (hs : Steps es') : Steps es := by
  obtain ⟨h1, h2, h3⟩ := hs
  have hn : List.Forall₂ (fun n n' : Node => n'.id = n.id ∧ n'.changeset = n.changeset ∧ n'.uid = n.uid) (nodesOf es) (nodesOf es') := by
    clear h1 h2 h3
    induction h with
    | nil => exact .nil
    | @cons a b as bs hab _ ih =>
      cases a <;> cases b <;> simp only [Rounded] at hab
      · next n n' =>
        refine .cons ?_ ih
        rw [hab.1]; exact ⟨rfl, rfl, rfl⟩
      · exact ih
      · exact ih
      · exact ih
  have mem : ∀ e ∈ es, ∃ e' ∈ es', Rounded e e' := by
    clear h1 h2 h3 hn
    induction h with
    | nil => simp
    | cons h _ ih =>
      intro e he
      rcases List.mem_cons.1 he with rfl | he
      · exact ⟨_, by simp, h⟩
      · obtain ⟨e', h1, h2⟩ := ih e he
        exact ⟨e', by simp [h1], h2⟩
  refine ⟨chain_forall₂ hn (fun a b a' b' ha hb h => ?_) h1, fun w hw => ?_, fun r hr => ?_⟩
  · unfold NodeStep at *
    rw [ha.1, ha.2.1, ha.2.2, hb.1, hb.2.1, hb.2.2] at h
    exact h
  · obtain ⟨e', he, hr⟩ := mem _ hw
    cases e' <;> simp only [Rounded] at hr
    have := h2 _ he
    rw [hr.1] at this
    exact this
  · obtain ⟨e', he, hr⟩ := mem _ hr
    cases e' <;> simp only [Rounded] at hr
    have := h3 _ he
    rw [hr.1] at this
    exact this

/-- C56 (the condition is needed). A written block says, by the published format, that its elements are the given ones up to rounding exactly
if all differences fit; otherwise the stored differences are wrapped ones, with other sums. -/
theorem C56_condition (es : List Element) (hh : Homogeneous es) (hr : ∀ e ∈ es, InRange e) (hl : (serializeData es).length < 2 ^ 31) :
    Steps es ↔ ∃ es', List.Forall₂ Rounded es es' ∧ Format.Block (toPrimitiveBlock es) es' := by
  constructor
  · intro hs
    refine ⟨_, ?_, block_written hh hs hr (lt_of_le_of_lt (table_length_le _) hl)⟩
    rw [List.forall₂_map_right_iff]
    exact List.forall₂_same.2 fun e he => quant_rounded (hr e he)
  · rintro ⟨es', h1, h2⟩
    obtain ⟨gs, h3, h4⟩ := h2.groups
    obtain ⟨g, h5, h6⟩ := toPrimitiveBlock_group es
    rw [h5] at h4
    cases h4 with
    | cons h7 h8 =>
      cases h8
      refine steps_rounded h1 ?_
      rw [h3]
      simpa using group_steps h7 h6

/-! ## There and back -/

/-- C85. What a build with overflow checks writes without a panic, it also reads, and gets the elements back up to rounding. -/
theorem C85_roundtrip (es : List Element) (hh : Homogeneous es) (hr : ∀ e ∈ es, InRange e) (hl : (serializeData es).length < 2 ^ 31)
    (data : Bytes) (h : serializeDataChecked es = .ok data) :
    ∃ es', List.Forall₂ Rounded es es' ∧ parseDataChecked data = .ok es' ∧ parseData data = .ok es' := by
  rcases C85_write es hr hl with ⟨hs, h1⟩ | ⟨_, h1⟩
  · rw [h1] at h
    injection h with h
    subst h
    obtain ⟨es', h2, h3⟩ := (C56_condition es hh hr hl).1 hs
    have hp : IsPrimitiveBlock (toPrimitiveBlock es) (serializeData es) :=
      PrimitiveBlock.encode_is _ (lt_trans hl (by norm_num))
    have hu : UsualUnits (toPrimitiveBlock es) := by
      obtain ⟨u1, u2, u3, u4⟩ := C56_units es
      unfold UsualUnits
      rw [u1, u2, u3, u4]
      norm_num
    have := C85_read_published _ es' _ hp h3 hu
    refine ⟨es', h2, this, ?_⟩
    rcases C85_read_same (serializeData es) with h | h
    · rw [← h, this]
    · rw [this] at h; simp at h
  · rw [h1] at h; simp at h

/-- If all sums of a column of wrapped differences fit, none of the differences was wrapped. -/
theorem steps_of_sums (l : Int64) (xs : List Int64) (h : ∀ i < xs.length, Fits64 (l.toInt + sum64 (dl l xs) i)) : RefSteps (l :: xs) := by
  induction xs generalizing l with
  | nil => simp [RefSteps]
  | cons x xs ih =>
    have h0 := h 0 (by simp)
    have e0 : sum64 (dl l (x :: xs)) 0 = (x - l).toInt := by simp [sum64, dl]
    rw [e0, Int64.toInt_sub, Int.bmod_def] at h0
    have := x.le_toInt
    have := x.toInt_lt
    have := l.le_toInt
    have := l.toInt_lt
    have hx : Fits64 (x.toInt - l.toInt) := by
      unfold Fits64 at *
      split at h0 <;> omega
    refine List.isChain_cons_cons.2 ⟨hx, ih x fun i hi => ?_⟩
    have := h (i + 1) (by simpa using hi)
    have e1 : sum64 (dl l (x :: xs)) (i + 1) = (x.toInt - l.toInt) + sum64 (dl x xs) i := by
      simp only [sum64, dl, List.take_succ_cons, List.map_cons, List.sum_cons]
      congr 1
      rw [Int64.toInt_sub, Int.bmod_def]
      unfold Fits64 at hx
      split <;> omega
    rw [e1] at this
    rwa [show x.toInt + sum64 (dl x xs) i = l.toInt + (x.toInt - l.toInt + sum64 (dl x xs) i) by omega]

theorem steps32_of_sums (l : Int32) (xs : List Int32) (h : ∀ i < xs.length, Fits32 (l.toInt + sum32 (dl l xs) i)) :
    (l :: xs).IsChain fun a b => Fits32 (b.toInt - a.toInt) := by
  induction xs generalizing l with
  | nil => simp
  | cons x xs ih =>
    have h0 := h 0 (by simp)
    have e0 : sum32 (dl l (x :: xs)) 0 = (x - l).toInt := by simp [sum32, dl]
    rw [e0, Int32.toInt_sub, Int.bmod_def] at h0
    have := x.le_toInt
    have := x.toInt_lt
    have := l.le_toInt
    have := l.toInt_lt
    have hx : Fits32 (x.toInt - l.toInt) := by
      unfold Fits32 at *
      split at h0 <;> omega
    refine List.isChain_cons_cons.2 ⟨hx, ih x fun i hi => ?_⟩
    have := h (i + 1) (by simpa using hi)
    have e1 : sum32 (dl l (x :: xs)) (i + 1) = (x.toInt - l.toInt) + sum32 (dl x xs) i := by
      simp only [sum32, dl, List.take_succ_cons, List.map_cons, List.sum_cons]
      congr 1
      rw [Int32.toInt_sub, Int.bmod_def]
      unfold Fits32 at hx
      split <;> omega
    rw [e1] at this
    rwa [show x.toInt + sum32 (dl x xs) i = l.toInt + (x.toInt - l.toInt + sum32 (dl x xs) i) by omega]

theorem refSteps_of_column {xs : List Int64} (h : FitsColumn (deltas 0 xs)) : RefSteps xs := by
  have := steps_of_sums 0 xs fun i hi => by
    have := h i (by simpa [deltas_eq_dl, dl_length] using hi)
    rw [deltas_eq_dl] at this
    simpa using this
  exact (refSteps_zero xs).1 this

theorem dense_steps_of_fits {p : Pb.PrimitiveBlock} {ns : List Node} {rs : List DRow}
    (h : FitsDense p { (denseOf ns rs).dense with denseinfo := some (denseOf ns rs).info }) : ns.IsChain NodeStep := by
  have hl : ∀ i < ns.length, _ := fun i hi => h i (by simpa [denseOf, dl_length] using hi)
  have h1 := steps_of_sums 0 (ns.map (·.id)) fun i hi => by
    have := (hl i (by simpa using hi)).1
    simpa [denseOf] using this
  have h2 := steps_of_sums 0 (ns.map (·.changeset)) fun i hi => by
    have := ((hl i (by simpa using hi)).2.2.2.2.2 _ rfl).2.2.1
    simpa [denseOf] using this
  have h3 := steps32_of_sums 0 (ns.map (·.uid)) fun i hi => by
    have := ((hl i (by simpa using hi)).2.2.2.2.2 _ rfl).2.2.2.1
    simpa [denseOf] using this
  have h1 := (refSteps_zero _).1 h1
  have h2 := (refSteps_zero _).1 h2
  have h3 := h3.tail
  unfold RefSteps at h1 h2
  rw [List.isChain_map] at h1 h2
  rw [List.tail_cons, List.isChain_map] at h3
  clear hl h
  rw [List.isChain_iff_getElem] at *
  exact fun i hi => ⟨h1 i hi, h2 i hi, h3 i hi⟩

/-- A written block whose sums all fit was made without wrapping a difference. -/
theorem steps_of_fits {es : List Element} (hh : Homogeneous es) (h : NoOverflow (toPrimitiveBlock es)) : Steps es := by
  obtain ⟨h1, h2, h3, h4⟩ := serFinal_inv es
  have hgrp : (toPrimitiveBlock es).primitivegroup = [match (serFinal es).dense with
    | some d => d.build
    | none =>
      match (serFinal es).ways with
      | some ws => { ways := ws }
      | none =>
        match (serFinal es).relations with
        | some rs => { relations := rs }
        | none => {}] := rfl
  unfold NoOverflow at h
  rw [hgrp] at h
  simp only [List.mem_singleton, forall_eq] at h
  generalize toPrimitiveBlock es = p at h
  have hk : es = kept es := (kept_homogeneous hh).symm
  have mem {α β : Type} {R : α → β → Prop} {as : List α} {bs : List β} (h : List.Forall₂ R as bs) : ∀ b ∈ bs, ∃ a ∈ as, R a b := by
    induction h with
    | nil => simp
    | cons h _ ih =>
      intro a ha
      rcases List.mem_cons.1 ha with rfl | ha
      · exact ⟨_, by simp, h⟩
      · obtain ⟨b, hb, hr⟩ := ih a ha
        exact ⟨b, by simp [hb], hr⟩
  rcases h2 with ⟨h2, h2'⟩ | ⟨h2, rs, h2', h2''⟩
  · rw [h2'] at h
    rcases h3 with ⟨h3, h3'⟩ | ⟨h3, ws, h3', h3''⟩
    · rw [h3'] at h
      rcases h4 with ⟨h4, h4'⟩ | ⟨h4, ws, h4', h4''⟩
      · have : es = [] := by rw [hk]; simp [kept, h2, h3, h4]
        subst this
        simp [Steps]
      · rw [h4''] at h
        have e : es = (relationsOf es).map .relation := by conv_lhs => rw [hk]
                                                           simp [kept, h2, h3]
        have hmem : ∀ r, Element.relation r ∈ es → r ∈ relationsOf es := fun r hr => by rw [e] at hr; simpa using hr
        refine ⟨by show (nodesOf es).IsChain _; rw [h2]; simp, fun w hw => ?_, fun r hr => ?_⟩
        · rw [e] at hw; simp at hw
        · obtain ⟨m, hm, hd⟩ := mem h4' r (hmem r hr)
          have hf := (h.2.2.2 m hm).2
          obtain ⟨ro, kvs, sid, x, a, b, rfl⟩ := hd
          have := refSteps_of_column hf
          simpa [memberParts_eq] using this
    · rw [h3''] at h
      have e : es = (waysOf es).map .way := by conv_lhs => rw [hk]
                                               simp [kept, h2, h3]
      have hmem : ∀ r, Element.way r ∈ es → r ∈ waysOf es := fun r hr => by rw [e] at hr; simpa using hr
      refine ⟨by show (nodesOf es).IsChain _; rw [h2]; simp, fun w hw => ?_, fun r hr => ?_⟩
      · obtain ⟨m, hm, hd⟩ := mem h3' w (hmem w hw)
        have hf := (h.2.2.1 m hm).2
        obtain ⟨kvs, sid, a, b, rfl⟩ := hd
        exact refSteps_of_column hf
      · rw [e] at hr; simp at hr
  · rw [h2''] at h
    have e : es = (nodesOf es).map .node := by conv_lhs => rw [hk]
                                               simp [kept, h2]
    refine ⟨dense_steps_of_fits (h.1 _ rfl), fun w hw => ?_, fun r hr => ?_⟩
    · rw [e] at hw; simp at hw
    · rw [e] at hr; simp at hr

/-- C85. A build with overflow checks reads exactly those blocks of a build without that it would have written itself; all others make it panic. -/
theorem C85_between_builds (es : List Element) (hh : Homogeneous es) (hr : ∀ e ∈ es, InRange e) (hl : (serializeData es).length < 2 ^ 31) :
    parseDataChecked (serializeData es) = .panic ↔ serializeDataChecked es = .panic := by
  rcases C85_write es hr hl with ⟨_, h1⟩ | ⟨hs, h1⟩
  · obtain ⟨es', _, h2, _⟩ := C85_roundtrip es hh hr hl _ h1
    rw [h1, h2]; simp
  · refine ⟨fun _ => h1, fun _ => ?_⟩
    have hp : IsPrimitiveBlock (toPrimitiveBlock es) (serializeData es) := PrimitiveBlock.encode_is _ (lt_trans hl (by norm_num))
    have ht := lt_of_le_of_lt (table_length_le (toPrimitiveBlock es)) hl
    rcases C85_read _ _ hp (lt_trans ht (by norm_num)) with ⟨⟨_, hn⟩, _⟩ | ⟨_, h2⟩
    · exact absurd (steps_of_fits hh hn) hs
    · exact h2

/-- Two nodes whose ids are more than 2^63 apart. -/
def exApart : List Element := [.node { exNode with id := -9223372036854775808 }, .node { exNode with id := 1 }]

/-- C85 (witness). Elements that a release build writes and reads back are a panic in a debug build, and so is reading the bytes the release build wrote. -/
theorem C85_builds_differ : ¬ Steps exApart ∧ serializeDataChecked exApart = .panic ∧ parseData (serializeData exApart) = .ok exApart ∧
    parseDataChecked (serializeData exApart) = .panic := by
  refine ⟨?_, by decide +kernel, ?_, ?_⟩
  · intro h
    have := h.1
    revert this
    simp [exApart, NodeStep, Fits64]
  · decide +kernel
  · decide +kernel

/-- The hypotheses of C85_between_builds hold of elements neither build agrees on, and of elements both do. -/
example : (Homogeneous exApart ∧ (∀ e ∈ exApart, InRange e) ∧ (serializeData exApart).length < 2 ^ 31 ∧ serializeDataChecked exApart = .panic) ∧
    (Homogeneous [.way { exWay with refs := [5, -7] }] ∧ (∀ e ∈ [Element.way { exWay with refs := [5, -7] }], InRange e) ∧ (serializeData [.way { exWay with refs := [5, -7] }]).length < 2 ^ 31 ∧
      serializeDataChecked [.way { exWay with refs := [5, -7] }] ≠ .panic) := by
  refine ⟨⟨.inl (by simp [exApart]), ?_, by decide +kernel, by decide +kernel⟩, .inr (.inl (by simp)), ?_, by decide +kernel, by decide +kernel⟩
  · simp only [exApart, List.mem_cons, List.not_mem_nil, or_false, forall_eq_or_imp, forall_eq, InRange, exNode]
    norm_num [abs_le]
    exact ⟨⟨by decide +kernel, by decide +kernel⟩, by decide +kernel, by decide +kernel⟩
  · simp [InRange]

example : Homogeneous [.way { exWay with refs := [5, -7, 9223372036854775800] }] ∧ Steps [.way { exWay with refs := [5, 9223372036854775800, -7] }] ∧
    ¬ Steps [.way { exWay with refs := [5, -8, 9223372036854775800] }] := by
  refine ⟨.inr (.inl (by simp)), ?_, ?_⟩
  · simp [Steps, RefSteps, Fits64]
  · simp [Steps, RefSteps, Fits64]

end OsmIo
