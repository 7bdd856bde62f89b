import Verif.Lemmas.ApidbDeal
import Verif.Props.ApidbReader
import Verif.Props.ApidbRow
import Verif.Props.Pipelines
/-!
# Dumps by the names of their columns: which rows an element gets (C77), owners (C44), conversion (C63)
-/
namespace OsmIo
open Text Sql Apidb Spec

/-- The tables an element iterator needs are in the dump, with the columns under these names. -/
structure Names (columns : Table → List Text) (tables : Tables) : Prop where
  nodup : ∀ t, (columns t).Nodup
  defines : Spec.defines columns tables
  present : ∀ t ∈ [Table.nodes, .nodeTags, .ways, .wayNodes, .wayTags, .relations, .relationMembers,
    .relationTags, .changesets, .users], (tables t).isSome

theorem Names.readFrom {columns : Table → List Text} {tables : Tables} (h : Names columns tables) {z : Codec} {sorted : Table → Text}
    {c : Content} (hc : c.Shown z columns sorted) : c.ReadFrom z tables sorted :=
  C67_content z columns h.nodup tables h.defines h.present sorted c hc

/-- C44, C45 for a dump given by the values under the names of its columns: reading it, in whatever order the rows are, ends
exactly when the changeset of every object belongs to a user; then the elements are the objects of the dump, one for one and
in order, each with the id and the name of the user of its changeset. -/
theorem C44_shown (z : Codec) (columns : Table → List Text) (tables : Tables) (hn : Names columns tables)
    (sorted : Table → Text) (c : Content) (h : c.Shown z columns sorted) :
    ∃ it, ElementIterator.new tables sorted = .ok it ∧
      (∀ es it', Iterates (ElementIterator.next z) it es it' →
        ∃ ns ws rs, es = withSentinels ns ws rs ∧ c.Objects ns ws rs) ∧
      (c.AllOwned → ∃ es it', Iterates (ElementIterator.next z) it es it') ∧
      (¬ c.AllOwned → (¬ ∃ es it', Iterates (ElementIterator.next z) it es it') ∧
        ∃ es s, Yields (ElementIterator.next z) it es s ∧ ElementIterator.next z s = .panic) :=
  C44_missing z tables sorted c (hn.readFrom h)

/-- C77: whatever the order of the rows, and whether or not each row belongs to an object, reading a dump deals the rows of the
tag, way node and member tables out to the objects in the order of the tables. -/
theorem C77_dealt (z : Codec) (columns : Table → List Text) (tables : Tables) (hn : Names columns tables)
    (sorted : Table → Text) (c : Content) (h : c.Shown z columns sorted) (ho : c.AllOwned) :
    ∃ it it' ns ws rs, ElementIterator.new tables sorted = .ok it ∧
      Iterates (ElementIterator.next z) it (withSentinels ns ws rs) it' ∧
      ∃ nodeTags wayTags relationTags wayNodes members lost1 lost2 lost3 lost4 lost5,
        c.Joined ns ws rs nodeTags wayTags relationTags wayNodes members ∧
        Dealt c.nodes nodeKey c.nodeTags tagKey nodeTags lost1 ∧
        Dealt c.ways objectKey c.wayTags tagKey wayTags lost2 ∧
        Dealt c.ways objectKey c.wayNodes wayNodeKey wayNodes lost3 ∧
        Dealt c.relations objectKey c.relationTags tagKey relationTags lost4 ∧
        Dealt c.relations objectKey c.relationMembers memberKey members lost5 := by
  obtain ⟨it, hnew, hst, h1, h2, h3, h5, h4, h6, h8, h7, howner⟩ := new_of_readFrom (hn.readFrom h)
  have own : ∀ it₁ : ElementIterator, it₁.userIndex = it.userIndex → it₁.changesetIndex = it.changesetIndex →
      ∀ k, (c.owner k).isSome → ∃ uid user, it₁.owner k = .ok (uid, user) := by
    intro it₁ e1 e2 k hk
    obtain ⟨⟨uid, user⟩, e⟩ := Option.isSome_iff_exists.1 hk
    exact ⟨uid, user, by rw [howner it₁ e1 e2, e]; rfl⟩
  have back : ∀ it₁ : ElementIterator, it₁.userIndex = it.userIndex → it₁.changesetIndex = it.changesetIndex →
      ∀ k p, it₁.owner k = .ok p → c.owner k = some p := by
    intro it₁ e1 e2 k p hk
    rw [howner it₁ e1 e2] at hk
    exact unwrap_eq_ok.1 hk
  obtain ⟨ns, a1, b1, f1, y1⟩ := nodes_deal z c.nodes { it with state := .nodes } c.nodeTags rfl h1 h2
    (fun r hr => own _ rfl rfl _ (ho.nodes r hr))
  obtain ⟨ws, a2, b2, c2, f2, y2⟩ := ways_deal z c.ways { it with state := .ways, nodes := a1, nodeTags := b1 }
    c.wayTags c.wayNodes rfl h3 h5 h4 (fun r hr => own _ rfl rfl _ (ho.ways r hr))
  obtain ⟨rs, a3, b3, c3, f3, y3⟩ := relations_deal z c.relations
    { it with state := .relations, nodes := a1, nodeTags := b1, ways := a2, wayTags := b2, wayNodes := c2 }
    c.relationTags c.relationMembers rfl h6 h8 h7 (fun r hr => own _ rfl rfl _ (ho.relations r hr))
  let fin : ElementIterator := { it with
    state := .finished, nodes := a1, nodeTags := b1, ways := a2, wayTags := b2, wayNodes := c2,
    relations := a3, relationTags := b3, relationMembers := c3 }
  refine ⟨it, fin, ns, ws, rs, hnew, ⟨fin, ?_, rfl⟩, _, _, _, _, _, _, _, _, _, _, ⟨f1.imp ?_, f2.imp ?_, f3.imp ?_⟩,
    dealt_deal _ _ _ _, dealt_deal _ _ _ _, dealt_deal _ _ _ _, dealt_deal _ _ _ _, dealt_deal _ _ _ _⟩
  · have y := Yields.append (Yields.append y1 y2) y3
    apply yields_start hst (by simp [withSentinels])
    have e : withSentinels ns ws rs = ns.map .node ++ [.sentinel] ++ (ws.map .way ++ [.sentinel]) ++
        (rs.map .relation ++ [.sentinel]) := by simp [withSentinels]
    rw [e]
    exact y
  · rintro ⟨r, ts⟩ n ⟨uid, user, ho, rfl⟩
    exact ⟨uid, user, back _ rfl rfl _ _ ho, rfl⟩
  · rintro ⟨r, ts, ps⟩ n ⟨uid, user, ho, rfl⟩
    exact ⟨uid, user, back _ rfl rfl _ _ ho, rfl⟩
  · rintro ⟨r, ts, ps⟩ n ⟨uid, user, ho, rfl⟩
    exact ⟨uid, user, back _ rfl rfl _ _ ho, rfl⟩

/-- C77: the rows lost are those from the first row on that belongs to no object still to come. -/
theorem C77_orphan {α β : Type} (objects : List α) (objectKey : α → Int64 × Int64) (parts : List β) (partKey : β → Int64 × Int64)
    (shares : List (List β)) (lost : List β) (h : Dealt objects objectKey parts partKey shares lost) (before after : List β) (p : β)
    (hp : parts = before ++ p :: after) (hno : ∀ o ∈ objects, objectKey o ≠ partKey p) :
    shares.flatten <+: before ∧ p :: after <:+ lost := by
  have hin : p ∉ shares.flatten := by
    intro hm
    obtain ⟨s, hs, hps⟩ := List.mem_flatten.1 hm
    obtain ⟨i, hi, rfl⟩ := List.getElem_of_mem hs
    have hlen := h.own.length_eq
    have := (List.forall₂_iff_get.1 h.own).2 i (by omega) hi p hps
    exact hno _ (List.getElem_mem _) this.symm
  have e : shares.flatten ++ lost = before ++ p :: after := by rw [← h.inOrder, hp]
  rcases List.append_eq_append_iff.1 e with ⟨as, h1, h2⟩ | ⟨bs, h1, h2⟩
  · exact ⟨⟨as, h1.symm⟩, ⟨as, h2.symm⟩⟩
  · cases bs with
    | nil => simp at h1 h2; exact ⟨by rw [h1], by rw [← h2]⟩
    | cons b bs =>
      simp at h2
      exact absurd (by rw [h1, h2.1]; simp) hin

/-- C77: no row is lost exactly when the table can be cut into one piece for each object, in the order of the objects, with
rows of that object only. -/
theorem C77_nothing_lost {α β : Type} (objects : List α) (objectKey : α → Int64 × Int64) (parts : List β) (partKey : β → Int64 × Int64)
    (shares : List (List β)) (lost : List β) (h : Dealt objects objectKey parts partKey shares lost) :
    lost = [] ↔ ∃ pieces : List (List β), parts = pieces.flatten ∧
      List.Forall₂ (fun o piece => ∀ p ∈ piece, partKey p = objectKey o) objects pieces := by
  constructor
  · rintro rfl
    exact ⟨shares, by simpa using h.inOrder, h.own⟩
  · rintro ⟨pieces, e, hf⟩
    obtain ⟨-, rfl⟩ := dealt_unique h
    clear h
    -- the rest after dealing is a suffix of what the pieces leave
    have gen : ∀ (os : List α) (ps : List β) (pieces : List (List β)) (x : List β), x ++ ps = pieces.flatten →
        List.Forall₂ (fun o piece => ∀ p ∈ piece, partKey p = objectKey o) os pieces → dealRest objectKey partKey os ps = [] := by
      intro os
      induction os with
      | nil =>
        intro ps pieces x e hf
        cases hf
        simp at e
        exact e.2
      | cons o os ih =>
        intro ps pieces x e hf
        cases hf with
        | @cons _ piece _ pieces h1 hf =>
        simp only [dealRest]
        rw [List.flatten_cons] at e
        rcases List.append_eq_append_iff.1 e with ⟨as, e1, e2⟩ | ⟨bs, e1, e2⟩
        · refine ih _ pieces (pieces.flatten.take (pieces.flatten.length - (ps.dropWhile fun p => decide (partKey p = objectKey o)).length)) ?_ hf
          have : (ps.dropWhile fun p => decide (partKey p = objectKey o)) <:+ pieces.flatten := by
            rw [e2, List.dropWhile_append_of_pos]
            · exact List.dropWhile_suffix _
            · intro p hp
              simpa using h1 p (by rw [e1]; simp [hp])
          obtain ⟨y, hy⟩ := this
          rw [← hy]
          simp
        · refine ih _ pieces (bs ++ ps.takeWhile fun p => decide (partKey p = objectKey o)) ?_ hf
          rw [e2, List.append_assoc, List.takeWhile_append_dropWhile]
    exact gen objects parts pieces [] (by simpa using e) hf

/-- C63 for a dump given by the values under the names of its columns. -/
theorem C63_shown (z : Zlib) (hz : z.Lossless) (cod : Apidb.Codec) (columns : Table → List Text) (tables : Apidb.Tables)
    (hn : Names columns tables) (sorted : Apidb.Table → Text) (dump : Content)
    (hread : dump.Shown cod columns sorted) (hwf : dump.WellFormed)
    (ns : List Node) (ws : List Way) (rs : List Relation) (hel : dump.Elements ns ws rs)
    (info : FileInfo) (c : CompressionType) (hi : ¬ EmptyInfo info) (hh : HeaderFits z c info)
    (hl : rs ≠ [] → ws ≠ []) (hfit : RunsFit z c (together ns ws rs)) :
    ∃ out es, (∀ r, ApidbToPbf z cod tables sorted info c r ↔ r = .ok out) ∧ ReadsElements z out es .done ∧
      List.Forall₂ Truncated (together ns ws rs) es :=
  C63_convert z hz cod tables sorted dump (hn.readFrom hread) hwf ns ws rs hel info c hi hh hl hfit

/-- The dump of `RowExample` meets the hypotheses. -/
example : Names RowExample.columns RowExample.tables ∧ RowExample.content.Shown RowExample.z RowExample.columns RowExample.sorted ∧
    RowExample.content.AllOwned := by
  refine ⟨⟨?_, ?_, ?_⟩, RowExample.shown, ?_⟩
  · intro t; cases t <;> decide +kernel
  · intro t d f h
    unfold RowExample.tables at h
    cases e : TableDef.new t (RowExample.columns t) with
    | ok d' => rw [e] at h; simp only [Option.some.injEq, Prod.mk.injEq] at h; rw [h.1]
    | err => rw [e] at h; cases h
    | panic => rw [e] at h; cases h
  · decide +kernel
  · exact ⟨by decide +kernel, by decide +kernel, by decide +kernel⟩

/-- Two objects; the second of three rows belongs to neither: it and the third row are lost. -/
example : Dealt [1, 2] (fun n : Nat => (Int64.ofNat n, 1)) [(1, "a"), (5, "b"), (2, "c")] (fun p : Nat × String => (Int64.ofNat p.1, 1))
    [[(1, "a")], []] [(5, "b"), (2, "c")] := by
  refine ⟨.cons (by decide) (.cons (by decide) .nil), by decide, ?_⟩
  intro i o p h1 h2
  rcases i with _ | _ | i
  · simp at h1 h2; subst h1 h2; decide
  · simp at h1 h2; subst h1 h2; decide
  · simp at h1

end OsmIo
