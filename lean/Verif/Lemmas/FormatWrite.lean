import Verif.Lemmas.Format
import Verif.Lemmas.Quant
/-! # Written blocks have the published meaning -/
namespace OsmIo
open Wire Spec

theorem sub64_toInt (a b : Int64) (h1 : -2 ^ 63 ≤ a.toInt - b.toInt) (h2 : a.toInt - b.toInt < 2 ^ 63) :
    (a - b).toInt = a.toInt - b.toInt := by
  rw [Int64.toInt_sub]; apply Int.bmod_eq_of_le <;> omega

theorem sub32_toInt (a b : Int32) (h1 : -2 ^ 31 ≤ a.toInt - b.toInt) (h2 : a.toInt - b.toInt < 2 ^ 31) :
    (a - b).toInt = a.toInt - b.toInt := by
  rw [Int32.toInt_sub]; apply Int.bmod_eq_of_le <;> omega

theorem dl_length {α : Type} [Sub α] (l : α) (xs : List α) : (dl l xs).length = xs.length := by
  induction xs generalizing l with
  | nil => rfl
  | cons x xs ih => simp [dl, ih]

theorem fits64_of (x : Int64) : Format.Fits64 x.toInt := ⟨Int64.le_toInt x, Int64.toInt_lt x⟩
theorem fits32_of (x : Int32) : Format.Fits32 x.toInt := ⟨Int32.le_toInt x, Int32.toInt_lt x⟩

/-- Telescoping. -/
theorem sum64_dl (l : Int64) (xs : List Int64) (h : Format.RefSteps (l :: xs))
    (i : Nat) (x : Int64) (hx : xs[i]? = some x) : Format.sum64 (dl l xs) i = x.toInt - l.toInt := by
  induction xs generalizing l i with
  | nil => simp at hx
  | cons y ys ih =>
    unfold Format.RefSteps at h
    rw [List.isChain_cons_cons] at h
    have e : (y - l).toInt = y.toInt - l.toInt := sub64_toInt _ _ h.1.1 h.1.2
    cases i with
    | zero =>
      simp at hx; subst hx
      simp [Format.sum64, dl, e]
    | succ i =>
      have := ih y h.2 i (by simpa using hx)
      simp only [Format.sum64, dl, List.take_succ_cons, List.map_cons, List.sum_cons, e] at this ⊢
      omega

theorem refSteps_zero (rs : List Int64) : Format.RefSteps (0 :: rs) ↔ Format.RefSteps rs := by
  cases rs with
  | nil => simp [Format.RefSteps]
  | cons r rs =>
    simp only [Format.RefSteps, List.isChain_cons_cons]
    refine and_iff_right ?_
    have : r.toInt - (0 : Int64).toInt = r.toInt := by simp
    rw [this]; exact fits64_of r

theorem refSteps_of_bound {B : ℤ} (hB : B ≤ 2 ^ 62) {xs : List Int64} (h : ∀ x ∈ xs, |x.toInt| < B) : Format.RefSteps xs := by
  apply List.Pairwise.isChain
  rw [List.pairwise_iff_forall_sublist]
  intro a b hab
  have h1 := abs_lt.1 (h a (hab.subset (by simp)))
  have h2 := abs_lt.1 (h b (hab.subset (by simp)))
  unfold Format.Fits64; omega

theorem sum32_dl (l : Int32) (xs : List Int32) (h : (l :: xs).IsChain fun a b => Format.Fits32 (b.toInt - a.toInt))
    (i : Nat) (x : Int32) (hx : xs[i]? = some x) : Format.sum32 (dl l xs) i = x.toInt - l.toInt := by
  induction xs generalizing l i with
  | nil => simp at hx
  | cons y ys ih =>
    rw [List.isChain_cons_cons] at h
    have e : (y - l).toInt = y.toInt - l.toInt := sub32_toInt _ _ h.1.1 h.1.2
    cases i with
    | zero =>
      simp at hx; subst hx
      simp [Format.sum32, dl, e]
    | succ i =>
      have := ih y h.2 i (by simpa using hx)
      simp only [Format.sum32, dl, List.take_succ_cons, List.map_cons, List.sum_cons, e] at this ⊢
      omega

theorem steps32_zero {rs : List Int32} (h : rs.IsChain fun a b => Format.Fits32 (b.toInt - a.toInt)) :
    ((0 : Int32) :: rs).IsChain fun a b => Format.Fits32 (b.toInt - a.toInt) := by
  cases rs with
  | nil => simp
  | cons r rs =>
    rw [List.isChain_cons_cons]
    refine ⟨?_, h⟩
    have : r.toInt - (0 : Int32).toInt = r.toInt := by simp
    rw [this]; exact fits32_of r

/-- An index into the table of the block. -/
theorem Den.entry {p : Pb.PrimitiveBlock} (hs : p.stringtable.s.length < 2 ^ 31) {i : Int32} {s : String} (h : Den (tblOf p) i s) :
    Format.Entry p i.toInt s ∧ Format.Entry p i.toUInt32.toNat s ∧ i ≠ 0 ∧ 0 ≤ i.toInt := by
  obtain ⟨n, h0, hl, rfl, hn⟩ := h.lt
  have hn' : n < 2 ^ 31 := lt_trans hl hs
  refine ⟨⟨n, Int32.toInt_ofNat_of_lt hn', hn⟩, ⟨n, by rw [ofNat_u32 hn'], hn⟩, ofNat_ne_zero h0 hn', ?_⟩
  rw [Int32.toInt_ofNat_of_lt hn']; omega

theorem TagsDen.tags {p : Pb.PrimitiveBlock} (hs : p.stringtable.s.length < 2 ^ 31) {kvs tags} (h : TagsDen (tblOf p) kvs tags) :
    Format.Tags p (kvs.map fun kv => kv.1.toUInt32) (kvs.map fun kv => kv.2.toUInt32) tags := by
  refine ⟨kvs.map fun kv => (kv.1.toUInt32, kv.2.toUInt32), by simp, by simp, ?_⟩
  rw [List.forall₂_map_left_iff]
  exact h.imp fun _ _ hh => ⟨(hh.1.entry hs).2.1, (hh.2.entry hs).2.1⟩

theorem TagsDen.keysVals {p : Pb.PrimitiveBlock} (hs : p.stringtable.s.length < 2 ^ 31) {kvs tags} (h : TagsDen (tblOf p) kvs tags) :
    Format.KeysVals p (kvs.flatMap fun kv => [kv.1, kv.2]) tags :=
  ⟨kvs, rfl, h.imp fun _ _ hh => ⟨(hh.1.entry hs).2.2.1, (hh.1.entry hs).1, (hh.2.entry hs).1⟩⟩

theorem quantTime_toInt (t : Int64) : (quantTime t).toInt = 1000 * (t / (1000 : Int32).toInt64).toInt := by
  have h1 := t.le_toInt
  have h2 := t.toInt_lt
  have e : ((1000 : Int32).toInt64) = 1000 := by decide
  have e2 : (1000 : Int64).toInt = 1000 := by decide
  obtain ⟨s, hs, hb⟩ := quantTime_spec t
  have : (t / (1000 : Int32).toInt64).toInt = t.toInt.tdiv 1000 := by
    rw [e, Int64.toInt_div, e2]
    have q1 : t.toInt.tdiv 1000 * 1000 + t.toInt.tmod 1000 = t.toInt := Int.tdiv_mul_add_tmod _ _
    rcases le_total 0 t.toInt with h | h
    · have := Int.tmod_nonneg 1000 h
      have := Int.tdiv_nonneg h (show (0 : ℤ) ≤ 1000 by norm_num)
      apply Int.bmod_eq_of_le <;> omega
    · have q4 : (-t.toInt).tdiv 1000 = - t.toInt.tdiv 1000 := Int.neg_tdiv _ _
      have := Int.tdiv_nonneg (show 0 ≤ -t.toInt by omega) (show (0 : ℤ) ≤ 1000 by norm_num)
      have q5 : (-t.toInt).tmod 1000 = - t.toInt.tmod 1000 := Int.neg_tmod _ _
      have := Int.tmod_nonneg 1000 (show 0 ≤ -t.toInt by omega)
      apply Int.bmod_eq_of_le <;> omega
  rw [this, hs]
  congr 1
  have q1 : t.toInt.tdiv 1000 * 1000 + t.toInt.tmod 1000 = t.toInt := Int.tdiv_mul_add_tmod _ _
  rcases le_total 0 t.toInt with h | h
  · have := Int.tmod_nonneg 1000 h
    have := Int.tmod_lt_of_pos t.toInt (b := 1000) (by omega)
    omega
  · have q5 : (-t.toInt).tmod 1000 = - t.toInt.tmod 1000 := Int.neg_tmod _ _
    have := Int.tmod_nonneg 1000 (show 0 ≤ -t.toInt by omega)
    have := Int.tmod_lt_of_pos (-t.toInt) (b := 1000) (by omega)
    omega

/-- The units of written blocks. -/
structure Units (p : Pb.PrimitiveBlock) : Prop where
  g : p.granularity = some 100
  d : p.date_granularity = some 1000
  a : p.lat_offset = some 0
  o : p.lon_offset = some 0
  small : p.stringtable.s.length < 2 ^ 31

theorem Units.dateGranularity {p : Pb.PrimitiveBlock} (h : Units p) : Format.dateGranularity p = 1000 := by
  simp [Format.dateGranularity, h.d]

theorem info_written {p : Pb.PrimitiveBlock} (hu : Units p) {version : Int32} {timestamp changeset : Int64} {uid : Int32} {user : String}
    {visible : Bool} {sid : Int32} (hsid : Den (tblOf p) sid user) :
    Format.Info p { visible := some visible, uid := some uid, changeset := some changeset
                    timestamp := some (timestamp / (1000 : Int32).toInt64), version := some version, user_sid := some sid.toUInt32 }
      version (quantTime timestamp) changeset uid user visible :=
  ⟨rfl, ⟨_, rfl, by rw [hu.dateGranularity, quantTime_toInt]⟩, rfl, rfl, ⟨_, rfl, (hsid.entry hu.small).2.1⟩, .inl rfl⟩

theorem way_written {p : Pb.PrimitiveBlock} (hu : Units p) {pw : Pb.Way} {w : Way} (h : WayDen (tblOf p) pw w) (hm : Format.RefSteps w.refs) :
    Format.WayIs p pw w.quant := by
  obtain ⟨kvs, sid, a, b, rfl⟩ := h
  refine ⟨rfl, by simp [deltas_eq_dl, dl_length, Way.quant], ?_, ⟨_, rfl, info_written hu b⟩, a.tags hu.small⟩
  intro i r hr
  have := sum64_dl 0 w.refs ((refSteps_zero _).2 hm) i r hr
  simp [deltas_eq_dl, this]

theorem memberParts_eq (x : Member) : Format.memberParts x = (x.typeCode, x.id, x.role) := by cases x <;> rfl

theorem relation_written {p : Pb.PrimitiveBlock} (hu : Units p) {pr : Pb.Relation} {r : Relation} (h : RelDen (tblOf p) pr r)
    (hm : Format.RefSteps (r.members.map fun m => (Format.memberParts m).2.1)) : Format.RelationIs p pr r.quant := by
  obtain ⟨ro, kvs, sid, x, a, b, rfl⟩ := h
  refine ⟨rfl, by simp [deltas_eq_dl, dl_length, Relation.quant], by simp [Relation.quant, memberParts_eq], ?_, ?_, ⟨_, rfl, info_written hu b⟩, a.tags hu.small⟩
  · intro i y hy
    have em : (r.members.map fun m => (Format.memberParts m).2.1) = r.members.map Member.id := by simp [memberParts_eq]
    have := sum64_dl 0 (r.members.map Member.id) ((refSteps_zero _).2 (em ▸ hm)) i y.id (by
        have : r.members[i]? = some y := hy
        simp [this])
    simp [deltas_eq_dl, this, memberParts_eq]
  · exact x.imp fun k m hk => by simpa [memberParts_eq] using (hk.entry hu.small).1

theorem coord_written {c : F64} (h : |c| ≤ 360) :
    |(encodeCoord 100 0 c).toInt| < 2 ^ 46 ∧ Format.Degrees (0 + 100 * (encodeCoord 100 0 c).toInt) (quantCoord c) := by
  obtain ⟨k, h1, h2, h3⟩ := encodeCoord_near c h
  have h4 := abs_le.1 h3
  have e : (encodeCoord 100 0 c).toInt = k := by rw [h1, toInt_ofInt64 (by omega) (by omega)]
  rw [e]
  refine ⟨by omega, by rw [abs_le]; omega, ?_⟩
  rw [quantCoord, h1, decodeCoord_grid k h3]
  congr 1
  push_cast; ring

theorem keysVals_eq (kvs : List (Int32 × Int32)) : keysVals kvs = (kvs.flatMap fun kv => [kv.1, kv.2]) ++ [0] := by
  simp [keysVals]

theorem mem64 {f : Node → Int64} {ns : List Node} {B : ℤ} (h : ∀ n ∈ ns, |(f n).toInt| < B) : ∀ x ∈ ns.map f, |x.toInt| < B := by
  intro x hx
  obtain ⟨n, hn, rfl⟩ := List.mem_map.1 hx
  exact h n hn

theorem dense_written {p : Pb.PrimitiveBlock} (hu : Units p) {ns : List Node} {rs : List DRow}
    (h : List.Forall₂ (DRow.Den (tblOf p)) rs ns) (hm : ns.IsChain Format.NodeStep) (hr : ∀ n ∈ ns, InRange (.node n)) :
    Format.Dense p { (denseOf ns rs).dense with denseinfo := some (denseOf ns rs).info } (ns.map Node.quant) := by
  have gu : Format.granularity p = 100 := by simp [Format.granularity, hu.g]
  have ga : Format.latOffset p = 0 := by simp [Format.latOffset, hu.a]
  have go : Format.lonOffset p = 0 := by simp [Format.lonOffset, hu.o]
  have hlen := h.length_eq
  have get : ∀ i n, (ns.map Node.quant)[i]? = some n → ∃ m, ns[i]? = some m ∧ m ∈ ns ∧ n = m.quant ∧ i < ns.length := by
    intro i n hn
    rw [List.getElem?_map, Option.map_eq_some_iff] at hn
    obtain ⟨m, h1, h2⟩ := hn
    refine ⟨m, h1, List.mem_of_getElem? h1, h2.symm, ?_⟩
    rcases Nat.lt_or_ge i ns.length with h | h
    · exact h
    · simp [List.getElem?_eq_none h] at h1
  have tel : ∀ (f : Node → Int64), Format.RefSteps (ns.map f) → ∀ i m, ns[i]? = some m →
      Format.sum64 (dl 0 (ns.map f)) i = (f m).toInt := by
    intro f hf i m hi
    rw [sum64_dl 0 _ ((refSteps_zero _).2 hf) i (f m) (by simp [hi])]
    simp
  have small : ∀ (f : Node → Int64), (∀ n ∈ ns, |(f n).toInt| < 2 ^ 62) → Format.RefSteps (ns.map f) := fun f hf => refSteps_of_bound le_rfl (mem64 hf)
  refine ⟨by simp [denseOf, dl_length], ?_, ?_, ⟨_, rfl, ?_⟩, .inr ⟨rs.map fun r => r.2.flatMap fun kv => [kv.1, kv.2], ?_, ?_⟩⟩
  · intro i n hn
    obtain ⟨m, h1, h2, rfl, h3⟩ := get i n hn
    exact (tel (fun n => n.id) (by unfold Format.RefSteps; rw [List.isChain_map]; exact hm.imp fun _ _ h => h.1) i m h1).symm
  · intro i n hn
    obtain ⟨m, h1, h2, rfl, h3⟩ := get i n hn
    refine ⟨by simpa [denseOf, dl_length] using h3, by simpa [denseOf, dl_length] using h3, ?_, ?_⟩
    · have := tel (fun n => encodeCoord 100 0 n.coordinate.lat)
        (small _ fun n hn => lt_trans (coord_written (hr n hn).1).1 (by norm_num)) i m h1
      simp only [denseOf, this, gu, ga]
      exact (coord_written (hr m h2).1).2
    · have := tel (fun n => encodeCoord 100 0 n.coordinate.lon)
        (small _ fun n hn => lt_trans (coord_written (hr n hn).2).1 (by norm_num)) i m h1
      simp only [denseOf, this, gu, go]
      exact (coord_written (hr m h2).2).2
  · intro i n hn
    obtain ⟨m, h1, h2, rfl, h3⟩ := get i n hn
    refine ⟨by simp [denseOf, h1, Node.quant], ⟨by simpa [denseOf, dl_length] using h3, ?_⟩, ⟨by simpa [denseOf, dl_length] using h3, ?_⟩,
      ⟨by simpa [denseOf, dl_length] using h3, ?_⟩, ⟨by simpa [denseOf, dl_length, hlen] using h3, ?_⟩, .inl (by simp [denseOf, h1, Node.quant])⟩
    · have := tel (fun n => n.timestamp / (1000 : Int32).toInt64) (small _ fun n _ => by
        have e1 := quantTime_toInt n.timestamp
        have e2 := (quantTime n.timestamp).le_toInt
        have e3 := (quantTime n.timestamp).toInt_lt
        rw [abs_lt]; omega) i m h1
      simp only [denseOf, this, hu.dateGranularity]
      exact quantTime_toInt _
    · exact (tel (fun n => n.changeset) (by unfold Format.RefSteps; rw [List.isChain_map]; exact hm.imp fun _ _ h => h.2.1) i m h1).symm
    · have := sum32_dl 0 (ns.map (·.uid)) (steps32_zero (by rw [List.isChain_map]; exact hm.imp fun _ _ h => h.2.2)) i m.uid (by simp [h1])
      simp only [denseOf, this, Node.quant]
      simp
    · have hri : i < rs.length := by omega
      have hd : DRow.Den (tblOf p) rs[i] m := by
        have := List.Forall₂.get h hri h3
        have e : ns[i] = m := by rw [List.getElem?_eq_getElem h3] at h1; exact Option.some.inj h1
        simpa [e] using this
      have := sum32_dl 0 (rs.map (·.1)) (steps32_zero (by
        have : ∀ x ∈ rs.map (·.1), 0 ≤ x.toInt := by
          intro x hx
          obtain ⟨r, hr, rfl⟩ := List.mem_map.1 hx
          obtain ⟨j, hj, rfl⟩ := List.mem_iff_getElem.1 hr
          exact ((List.Forall₂.get h hj (by omega)).1.entry hu.small).2.2.2
        apply List.Pairwise.isChain
        rw [List.pairwise_iff_forall_sublist]
        intro x y hxy
        have h1 := this x (hxy.subset (by simp))
        have h2 := this y (hxy.subset (by simp))
        have := x.toInt_lt
        have := y.toInt_lt
        unfold Format.Fits32; omega)) i rs[i].1 (by simp [List.getElem?_eq_getElem hri])
      simp only [denseOf, this, Node.quant]
      simpa using (hd.1.entry hu.small).1
  · simp [denseOf, List.flatMap_map, keysVals_eq]
  · rw [List.forall₂_map_left_iff, List.forall₂_map_right_iff]
    exact h.imp fun _ _ hd => hd.2.keysVals hu.small

theorem fmt_forall₂_mem {α β : Type} {R S : α → β → Prop} {as : List α} {bs : List β} (h : List.Forall₂ R as bs)
    (hf : ∀ a b, b ∈ bs → R a b → S a b) : List.Forall₂ S as bs := by
  induction h with
  | nil => exact .nil
  | cons h1 _ ih => exact .cons (hf _ _ (by simp) h1) (ih fun a b hb => hf a b (by simp [hb]))

theorem block_written {es : List Element} (hh : Homogeneous es) (hm : Format.Steps es) (hr : ∀ e ∈ es, InRange e)
    (hl : (toPrimitiveBlock es).stringtable.s.length < 2 ^ 31) : Format.Block (toPrimitiveBlock es) (es.map Element.quant) := by
  have hu : Units (toPrimitiveBlock es) := ⟨rfl, rfl, rfl, rfl, hl⟩
  obtain ⟨h1, h2, h3, h4⟩ := serFinal_inv es
  have et : tblOf (toPrimitiveBlock es) = (serFinal es).st.table := rfl
  rw [← et] at h2 h3 h4
  refine ⟨h1.utf, hl, [es.map Element.quant], by simp, ?_⟩
  have hgrp : (toPrimitiveBlock es).primitivegroup = [match (serFinal es).dense with
    | some d => d.build
    | none =>
      match (serFinal es).ways with
      | some ws => { ways := ws }
      | none =>
        match (serFinal es).relations with
        | some rs => { relations := rs }
        | none => {}] := rfl
  rw [hgrp]
  refine .cons ?_ .nil
  have hk : es = kept es := (kept_homogeneous hh).symm
  rcases h2 with ⟨h2, h2'⟩ | ⟨h2, rs, h2', h2''⟩
  · rw [h2']
    rcases h3 with ⟨h3, h3'⟩ | ⟨h3, ws, h3', h3''⟩
    · rw [h3']
      rcases h4 with ⟨h4, h4'⟩ | ⟨h4, ws, h4', h4''⟩
      · rw [h4']
        have : es = [] := by rw [hk]; simp [kept, h2, h3, h4]
        exact ⟨rfl, [], [], [], [], by simp [this], rfl, .nil, .nil, .nil⟩
      · rw [h4'']
        have e : es = (relationsOf es).map .relation := by conv_lhs => rw [hk]
                                                           simp [kept, h2, h3]
        refine ⟨rfl, [], [], [], (relationsOf es).map Relation.quant, ?_, rfl, .nil, .nil, ?_⟩
        · conv_lhs => rw [e]
          simp [Element.quant]
        · rw [List.forall₂_map_right_iff]
          refine fmt_forall₂_mem h4' fun a b hb hab => relation_written hu hab (hm.2.2 _ ?_)
          rw [e]; exact List.mem_map_of_mem hb
    · rw [h3'']
      have e : es = (waysOf es).map .way := by conv_lhs => rw [hk]
                                               simp [kept, h2, h3]
      refine ⟨rfl, [], [], (waysOf es).map Way.quant, [], ?_, rfl, .nil, ?_, .nil⟩
      · conv_lhs => rw [e]
        simp [Element.quant]
      · rw [List.forall₂_map_right_iff]
        refine fmt_forall₂_mem h3' fun a b hb hab => way_written hu hab (hm.2.1 _ ?_)
        rw [e]; exact List.mem_map_of_mem hb
  · rw [h2'']
    have e : es = (nodesOf es).map .node := by conv_lhs => rw [hk]
                                               simp [kept, h2]
    refine ⟨rfl, (nodesOf es).map Node.quant, [], [], [], ?_, ?_, .nil, .nil, .nil⟩
    · conv_lhs => rw [e]
      simp [Element.quant]
    · refine dense_written hu h2' hm.1 (fun n hn => hr _ ?_)
      rw [e]; exact List.mem_map_of_mem hn

/-- A part of such elements has only representable differences, too. -/
theorem steps_infix {es run : List Element} (h : Format.Steps es) (hr : run <:+: es) : Format.Steps run :=
  ⟨h.1.infix (hr.filterMap _), fun w hw => h.2.1 w (hr.subset hw), fun r h' => h.2.2 r (hr.subset h')⟩

/-- Numbers within half the range: no difference overflows. -/
theorem steps_of_moderate (es : List Element) (hm : ∀ e ∈ es, Format.Moderate e) : Format.Steps es := by
  refine ⟨?_, fun w hw => refSteps_of_bound le_rfl (hm _ hw), fun r hr => refSteps_of_bound le_rfl fun x hx => ?_⟩
  · apply List.Pairwise.isChain
    rw [List.pairwise_iff_forall_sublist]
    intro a b hab
    have mem (x : Node) (hx : x ∈ [a, b]) : Element.node x ∈ es := by
      have := hab.subset hx
      simp only [List.mem_filterMap] at this
      obtain ⟨e, he, hem⟩ := this
      cases e <;> simp at hem
      rw [← hem]; exact he
    obtain ⟨a1, a2, a3⟩ := hm _ (mem a (by simp))
    obtain ⟨b1, b2, b3⟩ := hm _ (mem b (by simp))
    have a1 := abs_lt.1 a1; have a2 := abs_lt.1 a2; have a3 := abs_lt.1 a3
    have b1 := abs_lt.1 b1; have b2 := abs_lt.1 b2; have b3 := abs_lt.1 b3
    refine ⟨?_, ?_, ?_⟩
    · unfold Format.Fits64; omega
    · unfold Format.Fits64; omega
    · unfold Format.Fits32; omega
  · obtain ⟨m, h1, h2⟩ := List.mem_map.1 hx
    rw [← h2]
    exact hm _ hr m h1

end OsmIo
