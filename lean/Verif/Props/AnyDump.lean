import Verif.Lemmas.AnyDump
import Verif.Props.FailingTables
import Verif.Props.DamagedDump
/-!
# What becomes of any dump (C89)
-/
namespace OsmIo
open Text Sql Apidb Spec

theorem itemsBuild {α : Type} {build : Text → Out α} {row : Text → α → Prop} {bad : Text → Prop} {ls : List (Option Text)}
    {is : List (Item α)} (hr : ∀ l r, row l r → l ≠ [] ∧ build l = .ok r) (hb : ∀ l, bad l → build l = .panic)
    (h : Items row bad ls is) : ReadsI build ls is :=
  Items.mono h (fun l r h1 h2 => ⟨stopLine_false.2 ⟨(hr l r h2).1, h1⟩, (hr l r h2).2⟩)
    fun l h1 h2 h3 => ⟨stopLine_false.2 ⟨h1, h2⟩, hb l h3⟩

/-- What a new iterator over any dump holds. -/
theorem newI_of_shown {z : Codec} {columns : Table → List Text} {tables : Tables} (hn : Names columns tables)
    {got : Table → List (Option Text)} {p : AnyDump} (h : p.Shown z columns got) :
    (Broken p.users ∨ Broken p.changesets → ElementIteratorF.new tables got = .panic) ∧
    (¬ Broken p.users → ¬ Broken p.changesets → ∃ it, ElementIteratorF.new tables got = .ok it ∧ it.state = .start ∧
      ReadsI (createNode it.fields.nodes) it.nodes p.nodes ∧
      it.nodeTags.HoldsI (createNodeTag z it.fields.nodeTags) p.nodeTags ∧
      ReadsI (createObject it.fields.ways) it.ways p.ways ∧
      it.wayTags.HoldsI (createObjectTag z it.fields.wayTags) p.wayTags ∧
      it.wayNodes.HoldsI (createWayNode it.fields.wayNodes) p.wayNodes ∧
      ReadsI (createObject it.fields.relations) it.relations p.relations ∧
      it.relationTags.HoldsI (createObjectTag z it.fields.relationTags) p.relationTags ∧
      it.relationMembers.HoldsI (createMember z it.fields.relationMembers) p.relationMembers ∧
      ∀ it₁ : ElementIteratorF, it₁.userIndex = it.userIndex → it₁.changesetIndex = it.changesetIndex →
        ∀ k, it₁.owner k = Out.unwrap (p.seen.owner k)) := by
  have get : ∀ t ∈ [Table.nodes, .nodeTags, .ways, .wayNodes, .wayTags, .relations, .relationMembers,
      .relationTags, .changesets, .users], ∃ d f, tables t = some (d, f) ∧ TableDef.new t (columns t) = .ok d := by
    intro t ht
    obtain ⟨⟨d, f⟩, e⟩ := Option.isSome_iff_exists.1 (hn.present t ht)
    exact ⟨d, f, e, hn.defines t d f e⟩
  obtain ⟨du, fu, tu, eu⟩ := get .users (by decide)
  obtain ⟨dc, fc, tc, ec⟩ := get .changesets (by decide)
  obtain ⟨d1, f1, t1, e1⟩ := get .nodes (by decide)
  obtain ⟨d2, f2, t2, e2⟩ := get .nodeTags (by decide)
  obtain ⟨d3, f3, t3, e3⟩ := get .ways (by decide)
  obtain ⟨d4, f4, t4, e4⟩ := get .wayNodes (by decide)
  obtain ⟨d5, f5, t5, e5⟩ := get .wayTags (by decide)
  obtain ⟨d6, f6, t6, e6⟩ := get .relations (by decide)
  obtain ⟨d7, f7, t7, e7⟩ := get .relationMembers (by decide)
  obtain ⟨d8, f8, t8, e8⟩ := get .relationTags (by decide)
  have hu : ReadsI (createUser du.fields) (got .users) p.users := itemsBuild (fun l r hr => ⟨by
    obtain ⟨_, c1, _⟩ := hr.id
    exact line_ne_nil (by decide) c1 hr.name, C67_user _ (hn.nodup _) du eu l r hr⟩) (C74_user _ (hn.nodup _) du eu) h.users
  have hc : ReadsI (createChangeset dc.fields) (got .changesets) p.changesets := itemsBuild (fun l r hr => ⟨by
    obtain ⟨_, c1, _⟩ := hr.id
    obtain ⟨_, c2, _⟩ := hr.user
    exact line_ne_nil (by decide) c1 c2, C67_changeset _ (hn.nodup _) dc ec l r hr⟩) (C74_changeset _ (hn.nodup _) dc ec) h.changesets
  have h1 : ReadsI (createNode d1.fields) (got .nodes) p.nodes := itemsBuild (fun l r hr => ⟨by
    obtain ⟨_, c1, _⟩ := hr.id
    obtain ⟨_, c2, _⟩ := hr.version
    exact line_ne_nil (by decide) c1 c2, C67_node _ (hn.nodup _) d1 e1 l r hr⟩) (C74_node _ (hn.nodup _) d1 e1) h.nodes
  have h2 : ReadsI (createNodeTag z d2.fields) (got .nodeTags) p.nodeTags := itemsBuild (fun l r hr => ⟨by
    obtain ⟨_, c1, _⟩ := hr.id
    obtain ⟨_, c2, _⟩ := hr.version
    exact line_ne_nil (by decide) c1 c2, C67_node_tag z _ (hn.nodup _) d2 e2 l r hr⟩) (C74_node_tag z _ (hn.nodup _) d2 e2) h.nodeTags
  have h3 : ReadsI (createObject d3.fields) (got .ways) p.ways := itemsBuild (fun l r hr => ⟨by
    obtain ⟨_, c1, _⟩ := hr.id
    obtain ⟨_, c2, _⟩ := hr.version
    exact line_ne_nil (by decide) c1 c2, C67_way _ (hn.nodup _) d3 e3 l r hr⟩) (C74_object _ (.inl rfl) _ (hn.nodup _) d3 e3) h.ways
  have h4 : ReadsI (createWayNode d4.fields) (got .wayNodes) p.wayNodes := itemsBuild (fun l r hr => ⟨by
    obtain ⟨_, c1, _⟩ := hr.way
    obtain ⟨_, c2, _⟩ := hr.version
    exact line_ne_nil (by decide) c1 c2, C67_way_node _ (hn.nodup _) d4 e4 l r hr⟩) (C74_way_node _ (hn.nodup _) d4 e4) h.wayNodes
  have h5 : ReadsI (createObjectTag z d5.fields) (got .wayTags) p.wayTags := itemsBuild (fun l r hr => ⟨by
    obtain ⟨_, c1, _⟩ := hr.id
    obtain ⟨_, c2, _⟩ := hr.version
    exact line_ne_nil (by decide) c1 c2, C67_object_tag z _ (hn.nodup _) d5 l r (.inl ⟨e5, hr⟩)⟩) (C74_object_tag z _ (.inl rfl) _ (hn.nodup _) d5 e5) h.wayTags
  have h6 : ReadsI (createObject d6.fields) (got .relations) p.relations := itemsBuild (fun l r hr => ⟨by
    obtain ⟨_, c1, _⟩ := hr.id
    obtain ⟨_, c2, _⟩ := hr.version
    exact line_ne_nil (by decide) c1 c2, C67_relation _ (hn.nodup _) d6 e6 l r hr⟩) (C74_object _ (.inr rfl) _ (hn.nodup _) d6 e6) h.relations
  have h7 : ReadsI (createMember z d7.fields) (got .relationMembers) p.relationMembers := itemsBuild (fun l r hr => ⟨by
    obtain ⟨_, c1, _⟩ := hr.relation
    obtain ⟨_, c2, _⟩ := hr.version
    exact line_ne_nil (by decide) c1 c2, C67_member z _ (hn.nodup _) d7 e7 l r hr⟩) (C74_member z _ (hn.nodup _) d7 e7) h.relationMembers
  have h8 : ReadsI (createObjectTag z d8.fields) (got .relationTags) p.relationTags := itemsBuild (fun l r hr => ⟨by
    obtain ⟨_, c1, _⟩ := hr.id
    obtain ⟨_, c2, _⟩ := hr.version
    exact line_ne_nil (by decide) c1 c2, C67_object_tag z _ (hn.nodup _) d8 l r (.inr ⟨e8, hr⟩)⟩) (C74_object_tag z _ (.inr rfl) _ (hn.nodup _) d8 e8) h.relationTags
  refine ⟨?_, fun hbu hbc => ?_⟩
  · intro hb
    unfold ElementIteratorF.new
    simp only [tu, tc, Out.unwrap_some, Out.ok_bind]
    by_cases hbu : Broken p.users
    · simp [(tableAllF_items hu).1 hbu]
    · simp [(tableAllF_items hu).2 hbu, (tableAllF_items hc).1 (hb.resolve_left hbu)]
  obtain ⟨it, hit, hnew⟩ : ∃ it : ElementIteratorF, it =
      { fields := ⟨d1.fields, d2.fields, d3.fields, d4.fields, d5.fields, d6.fields, d7.fields, d8.fields⟩
        userIndex := insertAll (rowsOf p.users) []
        changesetIndex := insertAll (rowsOf p.changesets) []
        state := .start
        nodes := got .nodes
        nodeTags := { lines := got .nodeTags }
        ways := got .ways
        wayTags := { lines := got .wayTags }
        wayNodes := { lines := got .wayNodes }
        relations := got .relations
        relationTags := { lines := got .relationTags }
        relationMembers := { lines := got .relationMembers } } ∧
      ElementIteratorF.new tables got = .ok it := by
    refine ⟨_, rfl, ?_⟩
    unfold ElementIteratorF.new
    simp only [tu, tc, t1, t2, t3, t4, t5, t6, t7, t8, Out.unwrap_some, Out.orErr_some, Out.ok_bind,
      (tableAllF_items hu).2 hbu, (tableAllF_items hc).2 hbc, Out.pure_eq]
  refine ⟨it, hnew, by subst hit; rfl, by subst hit; exact h1, by subst hit; exact ⟨_, h2, rfl⟩,
    by subst hit; exact h3, by subst hit; exact ⟨_, h5, rfl⟩, by subst hit; exact ⟨_, h4, rfl⟩,
    by subst hit; exact h6, by subst hit; exact ⟨_, h8, rfl⟩, by subst hit; exact ⟨_, h7, rfl⟩, ?_⟩
  intro it₁ e1 e2 k
  subst hit
  rw [ownerF_eq e1 e2]
  unfold Content.owner
  show _ = Out.unwrap (match lastValue (rowsOf p.changesets) k with | none => none | some uid => (lastValue (rowsOf p.users) uid).map _)
  cases lastValue (rowsOf p.changesets) k <;> rfl


theorem phase_mono {ι ε α : Type} {made made' : ι → ε → Prop} (hm : ∀ x e, made x e ↔ made' x e) {items : List (Item α)} {xs : List ι}
    {out : List ε} {ok : Prop} (h : Phase made items xs out ok) : Phase made' items xs out ok := by
  have : made = made' := by funext x e; exact propext (hm x e)
  rwa [← this]

/-- C89: a dump of any lines, any of which cannot be read. If the users or the changesets have a damaged line (before an end mark, an
empty line or a read that fails) it cannot be opened: a panic. Otherwise it yields the elements `es` of `Gives`, one after the other,
and then ends or panics as `Gives` says. -/
theorem C89_any (z : Codec) (columns : Table → List Text) (tables : Tables) (hn : Names columns tables)
    (got : Table → List (Option Text)) (p : AnyDump) (h : p.Shown z columns got) :
    (Broken p.users ∨ Broken p.changesets → ElementIteratorF.new tables got = .panic) ∧
    (¬ Broken p.users → ¬ Broken p.changesets → ∃ it, ElementIteratorF.new tables got = .ok it ∧ ∃ es well, p.Gives es well ∧
      (well → ∃ it', Iterates (ElementIteratorF.next z) it es it') ∧
      (¬ well → ∃ s, Yields (ElementIteratorF.next z) it es s ∧ ElementIteratorF.next z s = .panic)) := by
  obtain ⟨hpanic, hok⟩ := newI_of_shown hn h
  refine ⟨hpanic, fun hbu hbc => ?_⟩
  obtain ⟨it, hnew, hst, h1, h2, h3, h5, h4, h6, h8, h7, howner⟩ := hok hbu hbc
  refine ⟨it, hnew, ?_⟩
  have own : ∀ it₁ : ElementIteratorF, it₁.userIndex = it.userIndex → it₁.changesetIndex = it.changesetIndex →
      ∀ k q, it₁.owner k = .ok q ↔ p.seen.owner k = some q := by
    intro it₁ e1 e2 k q
    rw [howner it₁ e1 e2]
    exact unwrap_eq_ok
  have mkN : ∀ it₁ : ElementIteratorF, it₁.userIndex = it.userIndex → it₁.changesetIndex = it.changesetIndex → ∀ x e,
      (∃ uid user, it₁.owner x.1.changesetId = .ok (uid, user) ∧ e = nodeOf x.1 x.2 uid user) ↔ p.MakesNode x e := by
    intro it₁ e1 e2 x e
    unfold AnyDump.MakesNode
    simp only [own it₁ e1 e2]
    rfl
  have mkW : ∀ it₁ : ElementIteratorF, it₁.userIndex = it.userIndex → it₁.changesetIndex = it.changesetIndex → ∀ x e,
      (∃ uid user, it₁.owner x.1.changesetId = .ok (uid, user) ∧ e = wayOf x.1 x.2.1 x.2.2 uid user) ↔ p.MakesWay x e := by
    intro it₁ e1 e2 x e
    unfold AnyDump.MakesWay
    simp only [own it₁ e1 e2]
    rfl
  have mkR : ∀ it₁ : ElementIteratorF, it₁.userIndex = it.userIndex → it₁.changesetIndex = it.changesetIndex → ∀ x e,
      (∃ uid user, it₁.owner x.1.changesetId = .ok (uid, user) ∧ e = relationOf x.1 x.2.1 x.2.2 uid user) ↔ p.MakesRelation x e := by
    intro it₁ e1 e2 x e
    unfold AnyDump.MakesRelation
    simp only [own it₁ e1 e2]
    rfl
  obtain ⟨ns, ok1, p1, y1, n1⟩ := nodes_any z p.nodes { it with state := .nodes } p.nodeTags rfl h1 h2
  have p1 := phase_mono (mkN _ rfl rfl) p1
  by_cases k1 : ok1
  swap
  · obtain ⟨ws, ok2, p2, -, -⟩ := ways_any z p.ways { it with state := .ways } p.wayTags p.wayNodes rfl h3 h5 h4
    obtain ⟨rs, ok3, p3, -, -⟩ := relations_any z p.relations { it with state := .relations } p.relationTags p.relationMembers rfl h6 h8 h7
    obtain ⟨s, hy, hp⟩ := n1 k1
    obtain ⟨s', hy', hp'⟩ := panicF_start hst hy hp
    refine ⟨ns.map .node, False, ⟨_, _, _, _, _, dealtAny_deal _ _ _ _, dealtAny_deal _ _ _ _, dealtAny_deal _ _ _ _,
      dealtAny_deal _ _ _ _, dealtAny_deal _ _ _ _, ns, ws, rs, ok1, ok2, ok3, p1, phase_mono (mkW _ rfl rfl) p2,
      phase_mono (mkR _ rfl rfl) p3, ?_, fun _ => rfl, fun h => absurd h k1, fun h => absurd h k1, fun h => absurd h k1⟩,
      fun h => h.elim, fun _ => ⟨s', hy', hp'⟩⟩
    simp [k1]
  obtain ⟨a1, b1, y1⟩ := y1 k1
  have y1' := yieldsF_start hst (by simp) y1
  obtain ⟨ws, ok2, p2, y2, n2⟩ := ways_any z p.ways { it with state := .ways, nodes := a1, nodeTags := b1 } p.wayTags p.wayNodes rfl h3 h5 h4
  have p2 := phase_mono (mkW _ rfl rfl) p2
  by_cases k2 : ok2
  swap
  · obtain ⟨rs, ok3, p3, -, -⟩ := relations_any z p.relations { it with state := .relations } p.relationTags p.relationMembers rfl h6 h8 h7
    obtain ⟨s, hy, hp⟩ := n2 k2
    refine ⟨ns.map .node ++ [.sentinel] ++ ws.map .way, False, ⟨_, _, _, _, _, dealtAny_deal _ _ _ _, dealtAny_deal _ _ _ _,
      dealtAny_deal _ _ _ _, dealtAny_deal _ _ _ _, dealtAny_deal _ _ _ _, ns, ws, rs, ok1, ok2, ok3, p1, p2,
      phase_mono (mkR _ rfl rfl) p3, ?_, fun h => absurd k1 h, fun _ _ => rfl, fun _ h => absurd h k2, fun _ h => absurd h k2⟩,
      fun h => h.elim, fun _ => ⟨s, Yields.append y1' hy, hp⟩⟩
    simp [k2]
  obtain ⟨a2, b2, c2, y2⟩ := y2 k2
  obtain ⟨rs, ok3, p3, y3, n3⟩ := relations_any z p.relations
    { it with state := .relations, nodes := a1, nodeTags := b1, ways := a2, wayTags := b2, wayNodes := c2 }
    p.relationTags p.relationMembers rfl h6 h8 h7
  have p3 := phase_mono (mkR _ rfl rfl) p3
  by_cases k3 : ok3
  swap
  · obtain ⟨s, hy, hp⟩ := n3 k3
    refine ⟨ns.map .node ++ [.sentinel] ++ ws.map .way ++ [.sentinel] ++ rs.map .relation, False, ⟨_, _, _, _, _,
      dealtAny_deal _ _ _ _, dealtAny_deal _ _ _ _,
      dealtAny_deal _ _ _ _, dealtAny_deal _ _ _ _, dealtAny_deal _ _ _ _, ns, ws, rs, ok1, ok2, ok3, p1, p2,
      p3, ?_, fun h => absurd k1 h, fun _ h => absurd k2 h, fun _ _ _ => rfl, fun _ _ h => absurd h k3⟩,
      fun h => h.elim, fun _ => ⟨s, ?_, hp⟩⟩
    · simp [k3]
    · have y := Yields.append (Yields.append y1' y2) hy
      simpa using y
  obtain ⟨a3, b3, c3, y3⟩ := y3 k3
  let fin : ElementIteratorF := { it with
    state := .finished, nodes := a1, nodeTags := b1, ways := a2, wayTags := b2, wayNodes := c2,
    relations := a3, relationTags := b3, relationMembers := c3 }
  refine ⟨withSentinels ns ws rs, True, ⟨_, _, _, _, _, dealtAny_deal _ _ _ _, dealtAny_deal _ _ _ _, dealtAny_deal _ _ _ _,
    dealtAny_deal _ _ _ _, dealtAny_deal _ _ _ _, ns, ws, rs, ok1, ok2, ok3, p1, p2, p3, ?_, fun h => absurd k1 h,
    fun _ h => absurd k2 h, fun _ _ h => absurd k3 h, fun _ _ _ => rfl⟩, fun _ => ⟨fin, fin, ?_, rfl⟩, fun h => absurd trivial h⟩
  · simp [k1, k2, k3]
  · have y := Yields.append (Yields.append y1' y2) y3
    have e : withSentinels ns ws rs = ns.map .node ++ [.sentinel] ++ (ws.map .way ++ [.sentinel]) ++
        (rs.map .relation ++ [.sentinel]) := by simp [withSentinels]
    rw [e]
    exact y

/-! ### What is given is determined -/

theorem takeOwnI_app {β : Type} (mine : β → Bool) (share : List β) (rest : List (Item β)) (h : ∀ q ∈ share, mine q = true) :
    takeOwnI mine (share.map .row ++ rest) = (takeOwnI mine rest).map fun x => (share ++ x.1, x.2) := by
  induction share with
  | nil => simp
  | cons q share ih =>
    simp only [List.map_cons, List.cons_append, takeOwnI, h q (by simp), if_true, ih fun q hq => h q (by simp [hq]), Option.map_map]
    rfl

/-- The shares are determined. -/
theorem dealtAny_unique {α β : Type} {ok : α → Int64 × Int64} {pk : β → Int64 × Int64} {os : List α} {items : List (Item β)}
    {shares : List (List β)} (h : DealtAny ok pk os items shares) : shares = dealI ok pk os items := by
  induction h with
  | nil => rfl
  | other o os share p items shares h1 h2 h3 ih =>
    have e := takeOwnI_app (fun p => decide (pk p = ok o)) share (.row p :: items) (by simpa using h1)
    have e2 : takeOwnI (fun p => decide (pk p = ok o)) (.row p :: items) = some ([], .row p :: items) := by simp [takeOwnI, h2]
    simp only [dealI, e, e2, Option.map_some, List.append_nil]
    rw [← ih]
  | stop o os share items shares h1 h3 ih =>
    have e := takeOwnI_app (fun p => decide (pk p = ok o)) share (.stop :: items) (by simpa using h1)
    simp only [dealI, e, takeOwnI, Option.map_some, List.append_nil]
    rw [← ih]
  | last o os share shares h1 h3 ih =>
    have e := takeOwnI_app (fun p => decide (pk p = ok o)) share [] (by simpa using h1)
    simp only [List.append_nil] at e
    simp only [dealI, e, takeOwnI, Option.map_some, List.append_nil]
    rw [← ih]
  | bad o os share items h1 =>
    have e := takeOwnI_app (fun p => decide (pk p = ok o)) share (.bad :: items) (by simpa using h1)
    simp only [dealI, e, takeOwnI, Option.map_none]

theorem phase_unique {ι ε α : Type} {made : ι → ε → Prop} (hf : ∀ x e e', made x e → made x e' → e = e') {items : List (Item α)}
    {xs : List ι} {out out' : List ε} {ok ok' : Prop} (h : Phase made items xs out ok) (h' : Phase made items xs out' ok') :
    out = out' ∧ (ok ↔ ok') := by
  obtain ⟨done, rest, rfl, f1, n1, o1⟩ := h
  obtain ⟨done', rest', e, f2, n2, o2⟩ := h'
  have key : ∀ (done done' rest rest' : List ι) (out out' : List ε), done ++ rest = done' ++ rest' → List.Forall₂ made done out →
      List.Forall₂ made done' out' → (∀ x ∈ rest.head?, ∀ e, ¬ made x e) → (∀ x ∈ rest'.head?, ∀ e, ¬ made x e) →
      out = out' ∧ rest = rest' := by
    intro done
    induction done with
    | nil =>
      intro done' rest rest' out out' e f1 f2 n1 n2
      cases f1
      cases f2 with
      | nil => exact ⟨rfl, e⟩
      | cons hm _ =>
        simp only [List.nil_append, List.cons_append] at e
        subst e
        exact absurd hm (n1 _ rfl _)
    | cons x done ih =>
      intro done' rest rest' out out' e f1 f2 n1 n2
      cases f1 with
      | cons hm f1 =>
        cases f2 with
        | nil =>
          simp only [List.nil_append, List.cons_append] at e
          subst e
          exact absurd hm (n2 _ rfl _)
        | cons hm' f2 =>
          simp only [List.cons_append, List.cons.injEq] at e
          obtain ⟨rfl, e⟩ := e
          obtain ⟨rfl, rfl⟩ := ih _ _ _ _ _ e f1 f2 n1 n2
          exact ⟨by rw [hf _ _ _ hm hm'], rfl⟩
  obtain ⟨rfl, rfl⟩ := key _ _ _ _ _ _ e f1 f2 n1 n2
  exact ⟨rfl, o1.trans o2.symm⟩

/-- C89: what a dump gives is determined. -/
theorem C89_determined (p : AnyDump) (es es' : List Element) (well well' : Prop) (h : p.Gives es well) (h' : p.Gives es' well') :
    es = es' ∧ (well ↔ well') := by
  obtain ⟨_, _, _, _, _, d1, d2, d3, d4, d5, ns, ws, rs, ok1, ok2, ok3, p1, p2, p3, w, g1, g2, g3, g4⟩ := h
  obtain ⟨_, _, _, _, _, d1', d2', d3', d4', d5', ns', ws', rs', ok1', ok2', ok3', p1', p2', p3', w', g1', g2', g3', g4'⟩ := h'
  rw [dealtAny_unique d1] at p1
  rw [dealtAny_unique d2, dealtAny_unique d3] at p2
  rw [dealtAny_unique d4, dealtAny_unique d5] at p3
  rw [dealtAny_unique d1'] at p1'
  rw [dealtAny_unique d2', dealtAny_unique d3'] at p2'
  rw [dealtAny_unique d4', dealtAny_unique d5'] at p3'
  have fn : ∀ x e e', p.MakesNode x e → p.MakesNode x e' → e = e' := by
    rintro x e e' ⟨_, _, h1, rfl⟩ ⟨_, _, h2, rfl⟩
    rw [h1] at h2; cases h2; rfl
  have fw : ∀ x e e', p.MakesWay x e → p.MakesWay x e' → e = e' := by
    rintro x e e' ⟨_, _, h1, rfl⟩ ⟨_, _, h2, rfl⟩
    rw [h1] at h2; cases h2; rfl
  have fr : ∀ x e e', p.MakesRelation x e → p.MakesRelation x e' → e = e' := by
    rintro x e e' ⟨_, _, h1, rfl⟩ ⟨_, _, h2, rfl⟩
    rw [h1] at h2; cases h2; rfl
  obtain ⟨rfl, e1⟩ := phase_unique fn p1 p1'
  obtain ⟨rfl, e2⟩ := phase_unique fw p2 p2'
  obtain ⟨rfl, e3⟩ := phase_unique fr p3 p3'
  refine ⟨?_, by rw [w, w', e1, e2, e3]⟩
  by_cases k1 : ok1
  · by_cases k2 : ok2
    · by_cases k3 : ok3
      · rw [g4 k1 k2 k3, g4' (e1.1 k1) (e2.1 k2) (e3.1 k3)]
      · rw [g3 k1 k2 k3, g3' (e1.1 k1) (e2.1 k2) (fun h => k3 (e3.2 h))]
    · rw [g2 k1 k2, g2' (e1.1 k1) (fun h => k2 (e2.2 h))]
  · rw [g1 k1, g1' (fun h => k1 (e1.2 h))]

/-- C89: whatever the lines, an object gets only rows of its own, each at most once and in the order of the table. -/
theorem C89_own {α β : Type} (objectKey : α → Int64 × Int64) (partKey : β → Int64 × Int64) (objects : List α)
    (items : List (Item β)) (shares : List (List β)) (h : DealtAny objectKey partKey objects items shares) :
    (∃ served rest, objects = served ++ rest ∧ List.Forall₂ (fun o share => ∀ p ∈ share, partKey p = objectKey o) served shares) ∧
      List.Sublist (shares.flatten.map Item.row) items := by
  induction h with
  | nil items => exact ⟨⟨[], [], rfl, .nil⟩, by simp⟩
  | other o os share p items shares h1 h2 h3 ih =>
    obtain ⟨⟨served, rest, rfl, f⟩, s⟩ := ih
    refine ⟨⟨o :: served, rest, rfl, .cons h1 f⟩, ?_⟩
    rw [List.flatten_cons, List.map_append]
    exact (List.Sublist.refl _).append s
  | stop o os share items shares h1 h3 ih =>
    obtain ⟨⟨served, rest, rfl, f⟩, s⟩ := ih
    refine ⟨⟨o :: served, rest, rfl, .cons h1 f⟩, ?_⟩
    rw [List.flatten_cons, List.map_append]
    exact (List.Sublist.refl _).append (s.trans (List.sublist_cons_self _ _))
  | last o os share shares h1 h3 ih =>
    obtain ⟨⟨served, rest, rfl, f⟩, s⟩ := ih
    refine ⟨⟨o :: served, rest, rfl, .cons h1 f⟩, ?_⟩
    simp only [List.sublist_nil, List.map_eq_nil_iff] at s
    rw [List.flatten_cons, s]
    simp
  | bad o os share items h1 => exact ⟨⟨[], o :: os, rfl, .nil⟩, by simp⟩

/-! ### Every line is one of these -/

theorem items_total {α : Type} {row : Text → α → Prop} {bad : Text → Prop} (h : ∀ l, (∃ r, row l r) ∨ bad l) (ls : List (Option Text)) :
    ∃ is, Items row bad ls is := by
  induction ls with
  | nil => exact ⟨[], .nil⟩
  | cons l ls ih =>
    obtain ⟨is, hi⟩ := ih
    cases l with
    | none => exact ⟨_, .failed hi⟩
    | some l =>
      by_cases h1 : l = []
      · exact ⟨_, .mark (.inl h1) hi⟩
      by_cases h2 : ['\\', '.'] <+: l
      · exact ⟨_, .mark (.inr h2) hi⟩
      rcases h l with ⟨r, hr⟩ | hb
      · exact ⟨_, .row h2 hr hi⟩
      · exact ⟨_, .bad h1 h2 hb hi⟩

theorem stringText_total (z : Codec) (x : Text) : ∃ s, StringText z x s := by
  cases h : z.unescape x with
  | some s => exact ⟨s, .inl h⟩
  | none => exact ⟨_, .inr ⟨h, rfl⟩⟩

theorem not_bad_all {t : Table} {cols : List Text} {line : Text} (h : ¬ BadRow t cols line) :
    ∀ p ∈ demands t, Has cols line p.1 p.2 := by
  intro p hp
  by_contra hn
  exact h ⟨p, hp, hn⟩

/-- C89: there is no other kind of line in the tables of tags, nodes of ways and members: each line stands for a row or is damaged. -/
theorem C89_lines (z : Codec) (columns : List Text) (line : Text) :
    ((∃ r, TagRow z "node_id" columns line r) ∨ BadRow .nodeTags columns line) ∧
    ((∃ r, TagRow z "way_id" columns line r) ∨ BadRow .wayTags columns line) ∧
    ((∃ r, TagRow z "relation_id" columns line r) ∨ BadRow .relationTags columns line) ∧
    ((∃ r, WayNodeRow columns line r) ∨ BadRow .wayNodes columns line) ∧
    ((∃ r, MemberRow z columns line r) ∨ BadRow .relationMembers columns line) := by
  have tag : ∀ (t : Table) (name : String), demands t = [(name, AnyInt64), ("version", AnyInt64), ("k", AnyText), ("v", AnyText)] →
      (∃ r, TagRow z name columns line r) ∨ BadRow t columns line := by
    intro t name hd
    by_cases h : BadRow t columns line
    · exact .inr h
    left
    have h := not_bad_all h
    rw [hd] at h
    obtain ⟨x1, c1, v1, i1⟩ := h (name, AnyInt64) (by simp)
    obtain ⟨x2, c2, v2, i2⟩ := h ("version", AnyInt64) (by simp)
    obtain ⟨x3, c3, -⟩ := h ("k", AnyText) (by simp)
    obtain ⟨x4, c4, -⟩ := h ("v", AnyText) (by simp)
    obtain ⟨k, hk⟩ := stringText_total z x3
    obtain ⟨v, hv⟩ := stringText_total z x4
    exact ⟨⟨v1, v2, k, v⟩, ⟨x1, c1, i1⟩, ⟨x2, c2, i2⟩, ⟨x3, c3, hk⟩, ⟨x4, c4, hv⟩⟩
  refine ⟨tag _ _ rfl, tag _ _ rfl, tag _ _ rfl, ?_, ?_⟩
  · by_cases h : BadRow .wayNodes columns line
    · exact .inr h
    left
    have h := not_bad_all h
    obtain ⟨x1, c1, v1, i1⟩ := h ("way_id", AnyInt64) (by simp [demands])
    obtain ⟨x2, c2, v2, i2⟩ := h ("node_id", AnyInt64) (by simp [demands])
    obtain ⟨x3, c3, v3, i3⟩ := h ("version", AnyInt64) (by simp [demands])
    obtain ⟨x4, c4, v4, i4⟩ := h ("sequence_id", AnyInt64) (by simp [demands])
    exact ⟨{ wayId := v1, nodeId := v2, version := v3, sequenceId := v4 }, ⟨x1, c1, i1⟩, ⟨x2, c2, i2⟩, ⟨x3, c3, i3⟩, ⟨x4, c4, i4⟩⟩
  · by_cases h : BadRow .relationMembers columns line
    · exact .inr h
    left
    have h := not_bad_all h
    obtain ⟨x1, c1, v1, i1⟩ := h ("relation_id", AnyInt64) (by simp [demands])
    obtain ⟨x2, c2, v2, i2⟩ := h ("member_type", AnyKind) (by simp [demands])
    obtain ⟨x3, c3, v3, i3⟩ := h ("member_id", AnyInt64) (by simp [demands])
    obtain ⟨x4, c4, -⟩ := h ("member_role", AnyText) (by simp [demands])
    obtain ⟨x5, c5, v5, i5⟩ := h ("version", AnyInt64) (by simp [demands])
    obtain ⟨x6, c6, v6, i6⟩ := h ("sequence_id", AnyInt64) (by simp [demands])
    obtain ⟨s, hs⟩ := stringText_total z x4
    exact ⟨{ relationId := v1, memberType := v2, memberId := v3, memberRole := s, version := v5, sequenceId := v6 },
      ⟨x1, c1, i1⟩, ⟨x2, c2, i2⟩, ⟨x3, c3, i3⟩, ⟨x4, c4, hs⟩, ⟨x5, c5, i5⟩, ⟨x6, c6, i6⟩⟩

/-! ### Tables that can be read: the other model -/

/-- All reads succeed. -/
def Apidb.Child.all {β : Type} (c : Child β) : ChildF β := ⟨c.pending, c.lines.map some⟩

/-- All reads succeed. -/
def Apidb.ElementIterator.all (it : ElementIterator) : ElementIteratorF :=
  ⟨it.fields, it.userIndex, it.changesetIndex, it.state, it.nodes.map some, it.nodeTags.all, it.ways.map some, it.wayTags.all,
    it.wayNodes.all, it.relations.map some, it.relationTags.all, it.relationMembers.all⟩

theorem tableNextF_all {α : Type} (build : Text → Out α) (ls : List Text) :
    tableNextF build (ls.map some) = (tableNext build ls >>= fun x => .ok (x.1, x.2.map some)) := by
  cases ls with
  | nil => rfl
  | cons l ls =>
    simp only [List.map_cons, tableNextF, tableNext]
    split
    · rfl
    · cases build l <;> rfl

theorem tableAllF_all {α : Type} (build : Text → Out α) (ls : List Text) : tableAllF build (ls.map some) = tableAll build ls := by
  induction ls with
  | nil => rfl
  | cons l ls ih => simp only [List.map_cons, tableAllF, tableAll, ih]

theorem gatherF_all {β : Type} (build : Text → Out β) (mine : β → Bool) (ls : List Text) :
    gatherF build mine (ls.map some) = (gather build mine ls >>= fun x => .ok (x.1, x.2.1, x.2.2.map some)) := by
  induction ls with
  | nil => rfl
  | cons l ls ih =>
    simp only [List.map_cons, gatherF, gather, ih]
    split
    · rfl
    · cases build l with
      | ok r =>
        simp only [Out.ok_bind]
        split
        · cases gather build mine ls <;> rfl
        · rfl
      | err => rfl
      | panic => rfl

theorem attachF_all {β : Type} (build : Text → Out β) (mine : β → Bool) (q : Option β) (ls : List Text) :
    attachF build mine q (ls.map some) = (attach build mine q ls >>= fun x => .ok (x.1, x.2.1, x.2.2.map some)) := by
  unfold attachF attach
  cases q with
  | none => exact gatherF_all _ _ _
  | some r =>
    simp only [gatherF_all]
    split
    · cases gather build mine ls <;> rfl
    · rfl

theorem nodesNextF_all (z : Codec) (fn ft : List Nat) (ns : List Text) (c : Child TagRecord) :
    nodesNextF z fn ft (ns.map some) c.all = (nodesNext z fn ft ns c >>= fun x => .ok (x.1, x.2.1.map some, x.2.2.all)) := by
  unfold nodesNextF nodesNext
  rw [tableNextF_all]
  cases tableNext (createNode fn) ns with
  | err => rfl
  | panic => rfl
  | ok x =>
    obtain ⟨r, ls⟩ := x
    cases r with
    | none => rfl
    | some n =>
      simp only [Out.ok_bind, Apidb.Child.all, attachF_all]
      cases attach (createNodeTag z ft) (fun t => decide (t.id = n.nodeId) && decide (t.version = n.version)) c.pending c.lines <;> rfl

theorem objectsNextF_all {β : Type} (z : Codec) (fo ft : List Nat) (b : Text → Out β) (pk : β → Int64 × Int64) (os : List Text)
    (c : Child TagRecord) (d : Child β) :
    objectsNextF z fo ft b pk (os.map some) c.all d.all =
      (objectsNext z fo ft b pk os c d >>= fun x => .ok (x.1, x.2.1.map some, x.2.2.1.all, x.2.2.2.all)) := by
  unfold objectsNextF objectsNext
  rw [tableNextF_all]
  cases tableNext (createObject fo) os with
  | err => rfl
  | panic => rfl
  | ok x =>
    obtain ⟨r, ls⟩ := x
    cases r with
    | none => rfl
    | some o =>
      simp only [Out.ok_bind, Apidb.Child.all, attachF_all]
      cases attach (createObjectTag z ft) (fun t => decide (t.id = o.id) && decide (t.version = o.version)) c.pending c.lines with
      | err => rfl
      | panic => rfl
      | ok x =>
        simp only [Out.ok_bind]
        cases attach b (fun p => decide ((pk p).1 = o.id) && decide ((pk p).2 = o.version)) d.pending d.lines <;> rfl

theorem nextF_all (z : Codec) (it : ElementIterator) :
    ElementIteratorF.next z it.all = (ElementIterator.next z it >>= fun x => .ok (x.1, x.2.all)) := by
  have hnode : ∀ it : ElementIterator, ElementIteratorF.nextNode z it.all = (ElementIterator.nextNode z it >>= fun x => .ok (x.1, x.2.all)) := by
    intro it
    unfold ElementIteratorF.nextNode ElementIterator.nextNode
    have e := nodesNextF_all z it.fields.nodes it.fields.nodeTags it.nodes it.nodeTags
    refine (congrArg (· >>= _) e).trans ?_
    cases nodesNext z it.fields.nodes it.fields.nodeTags it.nodes it.nodeTags with
    | err => rfl
    | panic => rfl
    | ok x =>
      obtain ⟨r, ls, c⟩ := x
      cases r with
      | none => rfl
      | some q =>
        obtain ⟨n, ts⟩ := q
        simp only [Out.ok_bind]
        generalize ho : ElementIterator.owner _ n.changesetId = o
        have : ElementIteratorF.owner
          { it.all with nodes := ls.map some, nodeTags := c.all } n.changesetId = o := ho
        erw [this]
        cases o <;> rfl
  have hway : ∀ it : ElementIterator, ElementIteratorF.nextWay z it.all = (ElementIterator.nextWay z it >>= fun x => .ok (x.1, x.2.all)) := by
    intro it
    unfold ElementIteratorF.nextWay ElementIterator.nextWay
    have e := objectsNextF_all z it.fields.ways it.fields.wayTags (createWayNode it.fields.wayNodes)
      (fun p => (p.wayId, p.version)) it.ways it.wayTags it.wayNodes
    refine (congrArg (· >>= _) e).trans ?_
    cases objectsNext z it.fields.ways it.fields.wayTags (createWayNode it.fields.wayNodes)
      (fun p => (p.wayId, p.version)) it.ways it.wayTags it.wayNodes with
    | err => rfl
    | panic => rfl
    | ok x =>
      obtain ⟨r, ls, c, d⟩ := x
      cases r with
      | none => rfl
      | some q =>
        obtain ⟨n, ts, ps⟩ := q
        simp only [Out.ok_bind]
        generalize ho : ElementIterator.owner _ n.changesetId = o
        have : ElementIteratorF.owner
          { it.all with ways := ls.map some, wayTags := c.all, wayNodes := d.all } n.changesetId = o := ho
        erw [this]
        cases o <;> rfl
  have hrel : ∀ it : ElementIterator,
      ElementIteratorF.nextRelation z it.all = (ElementIterator.nextRelation z it >>= fun x => .ok (x.1, x.2.all)) := by
    intro it
    unfold ElementIteratorF.nextRelation ElementIterator.nextRelation
    have e := objectsNextF_all z it.fields.relations it.fields.relationTags (createMember z it.fields.relationMembers)
      (fun p => (p.relationId, p.version)) it.relations it.relationTags it.relationMembers
    refine (congrArg (· >>= _) e).trans ?_
    cases objectsNext z it.fields.relations it.fields.relationTags (createMember z it.fields.relationMembers)
      (fun p => (p.relationId, p.version)) it.relations it.relationTags it.relationMembers with
    | err => rfl
    | panic => rfl
    | ok x =>
      obtain ⟨r, ls, c, d⟩ := x
      cases r with
      | none => rfl
      | some q =>
        obtain ⟨n, ts, ps⟩ := q
        simp only [Out.ok_bind]
        generalize ho : ElementIterator.owner _ n.changesetId = o
        have : ElementIteratorF.owner
          { it.all with relations := ls.map some, relationTags := c.all, relationMembers := d.all } n.changesetId = o := ho
        erw [this]
        cases o <;> rfl
  unfold ElementIteratorF.next ElementIterator.next
  show (match it.state with | .start => _ | .nodes => _ | .ways => _ | .relations => _ | .finished => _) = _
  cases it.state with
  | start => exact hnode { it with state := .nodes }
  | nodes => exact hnode it
  | ways => exact hway it
  | relations => exact hrel it
  | finished => rfl

theorem newF_all (tables : Tables) (sorted : Table → Text) :
    ElementIteratorF.new tables (fun t => (lines (sorted t)).map some) = (ElementIterator.new tables sorted >>= fun it => .ok it.all) := by
  unfold ElementIteratorF.new ElementIterator.new
  simp only [tableAllF_all]
  cases Out.unwrap (tables .users) with
  | err => rfl
  | panic => rfl
  | ok u =>
  simp only [Out.ok_bind]
  cases tableAll (createUser u.1.fields) (lines (sorted .users)) with
  | err => rfl
  | panic => rfl
  | ok us =>
  simp only [Out.ok_bind]
  cases Out.unwrap (tables .changesets) with
  | err => rfl
  | panic => rfl
  | ok u =>
  simp only [Out.ok_bind]
  cases tableAll (createChangeset u.1.fields) (lines (sorted .changesets)) with
  | err => rfl
  | panic => rfl
  | ok us =>
  simp only [Out.ok_bind]
  cases Out.orErr (tables .nodes) <;> try rfl
  simp only [Out.ok_bind]
  cases Out.orErr (tables .nodeTags) <;> try rfl
  simp only [Out.ok_bind]
  cases Out.orErr (tables .ways) <;> try rfl
  simp only [Out.ok_bind]
  cases Out.orErr (tables .wayNodes) <;> try rfl
  simp only [Out.ok_bind]
  cases Out.orErr (tables .wayTags) <;> try rfl
  simp only [Out.ok_bind]
  cases Out.orErr (tables .relations) <;> try rfl
  simp only [Out.ok_bind]
  cases Out.orErr (tables .relationMembers) <;> try rfl
  simp only [Out.ok_bind]
  cases Out.orErr (tables .relationTags) <;> rfl

theorem yields_all (z : Codec) {it s : ElementIterator} {es : List Element} (h : Yields (ElementIterator.next z) it es s) :
    Yields (ElementIteratorF.next z) it.all es s.all := by
  induction h with
  | nil => exact .nil _
  | cons h1 _ ih => exact .cons (by rw [nextF_all, h1]; rfl) ih

theorem yields_all_inv (z : Codec) {itF s : ElementIteratorF} {es : List Element} (h : Yields (ElementIteratorF.next z) itF es s) :
    ∀ it : ElementIterator, itF = it.all → ∃ t : ElementIterator, s = t.all ∧ Yields (ElementIterator.next z) it es t := by
  induction h with
  | nil => intro it e; exact ⟨it, e, .nil _⟩
  | cons h1 _ ih =>
    rintro it rfl
    rw [nextF_all] at h1
    obtain ⟨x, hx, h1⟩ := Out.bind_eq_ok.1 h1
    obtain ⟨a, it'⟩ := x
    cases h1
    obtain ⟨t, rfl, ht⟩ := ih it' rfl
    exact ⟨t, rfl, .cons hx ht⟩

/-- C89: on tables all of whose lines can be read the model with failing reads is the model the other properties are about: opening,
the elements, the end and the panics are the same. -/
theorem C89_same (z : Codec) (tables : Tables) (sorted : Table → Text) :
    (ElementIteratorF.new tables (fun t => (lines (sorted t)).map some) = .err ↔ ElementIterator.new tables sorted = .err) ∧
    (ElementIteratorF.new tables (fun t => (lines (sorted t)).map some) = .panic ↔ ElementIterator.new tables sorted = .panic) ∧
    ∀ it, ElementIterator.new tables sorted = .ok it → ∃ itF, ElementIteratorF.new tables (fun t => (lines (sorted t)).map some) = .ok itF ∧
      (∀ es, (∃ it', Iterates (ElementIterator.next z) it es it') ↔ ∃ it', Iterates (ElementIteratorF.next z) itF es it') ∧
      (∀ es, (∃ s, Yields (ElementIterator.next z) it es s ∧ ElementIterator.next z s = .panic) ↔
        ∃ s, Yields (ElementIteratorF.next z) itF es s ∧ ElementIteratorF.next z s = .panic) := by
  rw [newF_all]
  refine ⟨?_, ?_, fun it hit => ⟨it.all, by rw [hit]; rfl, fun es => ⟨?_, ?_⟩, fun es => ⟨?_, ?_⟩⟩⟩
  · cases ElementIterator.new tables sorted <;> simp
  · cases ElementIterator.new tables sorted <;> simp
  · rintro ⟨it', s, h1, h2⟩
    exact ⟨it'.all, s.all, yields_all z h1, by rw [nextF_all, h2]; rfl⟩
  · rintro ⟨it', s, h1, h2⟩
    obtain ⟨t, rfl, h3⟩ := yields_all_inv z h1 it rfl
    rw [nextF_all] at h2
    obtain ⟨⟨a, t'⟩, hx, h2⟩ := Out.bind_eq_ok.1 h2
    cases h2
    exact ⟨t', t, h3, hx⟩
  · rintro ⟨s, h1, h2⟩
    exact ⟨s.all, yields_all z h1, by rw [nextF_all, h2]; rfl⟩
  · rintro ⟨s, h1, h2⟩
    obtain ⟨t, rfl, h3⟩ := yields_all_inv z h1 it rfl
    rw [nextF_all] at h2
    refine ⟨t, h3, ?_⟩
    cases hn : ElementIterator.next z t with
    | ok x => rw [hn] at h2; cases h2
    | err => rw [hn] at h2; cases h2
    | panic => rfl

/-- C89 for tables all of whose lines can be read, whatever they are. -/
theorem C89_plain (z : Codec) (columns : Table → List Text) (tables : Tables) (hn : Names columns tables)
    (sorted : Table → Text) (p : AnyDump) (h : p.Shown z columns fun t => (lines (sorted t)).map some) :
    (Broken p.users ∨ Broken p.changesets → ElementIterator.new tables sorted = .panic) ∧
    (¬ Broken p.users → ¬ Broken p.changesets → ∃ it, ElementIterator.new tables sorted = .ok it ∧ ∃ es well, p.Gives es well ∧
      (well → ∃ it', Iterates (ElementIterator.next z) it es it') ∧
      (¬ well → ∃ s, Yields (ElementIterator.next z) it es s ∧ ElementIterator.next z s = .panic)) := by
  obtain ⟨h1, h2⟩ := C89_any z columns tables hn _ p h
  obtain ⟨s1, s2, s3⟩ := C89_same z tables sorted
  refine ⟨fun hb => s2.1 (h1 hb), fun hbu hbc => ?_⟩
  obtain ⟨itF, e, es, well, hg, hw, hnw⟩ := h2 hbu hbc
  cases hit : ElementIterator.new tables sorted with
  | err => rw [s1.2 hit] at e; cases e
  | panic => rw [s2.2 hit] at e; cases e
  | ok it =>
    obtain ⟨itF', e', q1, q2⟩ := s3 it hit
    rw [e] at e'
    cases e'
    exact ⟨it, rfl, es, well, hg, fun w => (q1 es).2 (hw w), fun w => (q2 es).2 (hnw w)⟩

/-- C89: converting such a dump to a file panics when it cannot be opened or does not end well, and never reports success; otherwise
the file holds its elements. -/
theorem C89_program (z : Zlib) (hz : z.Lossless) (cod : Apidb.Codec) (columns : Table → List Text) (tables : Apidb.Tables)
    (hn : Names columns tables) (got : Table → List (Option Text)) (p : AnyDump) (h : p.Shown cod columns got)
    (info : FileInfo) (c : CompressionType) :
    (Broken p.users ∨ Broken p.changesets ∨ (∃ es, p.Gives es False) → ∀ r, ApidbToPbfF z cod tables got info c r ↔ r = .panic) ∧
    (¬ Broken p.users → ¬ Broken p.changesets → ∀ ns ws rs, p.Gives (withSentinels ns ws rs) True →
      ¬ EmptyInfo info → HeaderFits z c info → (rs ≠ [] → ws ≠ []) → RunsFit z c (together ns ws rs) →
      ∃ out es, (∀ r, ApidbToPbfF z cod tables got info c r ↔ r = .ok out) ∧ ReadsElements z out es .done ∧
        List.Forall₂ Truncated (together ns ws rs) es) := by
  obtain ⟨h1, h2⟩ := C89_any cod columns tables hn _ p h
  constructor
  · intro hb r
    by_cases hbu : Broken p.users
    · unfold ApidbToPbfF; rw [h1 (.inl hbu)]
    by_cases hbc : Broken p.changesets
    · unfold ApidbToPbfF; rw [h1 (.inr hbc)]
    obtain ⟨es, hes⟩ := (hb.resolve_left hbu).resolve_left hbc
    obtain ⟨it, e, es', well, hg, -, hnw⟩ := h2 hbu hbc
    obtain ⟨-, hw⟩ := C89_determined p _ _ _ _ hes hg
    obtain ⟨s, hy, hp⟩ := hnw (fun w => hw.2 w)
    unfold ApidbToPbfF
    rw [e]
    constructor
    · rintro (⟨es'', it'', ⟨s1, h3, h4⟩, rfl⟩ | ⟨_, _, _, _, rfl⟩)
      · exact absurd (.inl hp) (yields_stop h3 h4 hy)
      · rfl
    · rintro rfl
      exact .inr ⟨_, s, hy, .inl hp, rfl⟩
  · intro hbu hbc ns ws rs hgiv hi hh hl hfit
    obtain ⟨it, e, es', well, hg, hw', -⟩ := h2 hbu hbc
    obtain ⟨he, hw⟩ := C89_determined p _ _ _ _ hgiv hg
    subst he
    obtain ⟨it', h3⟩ := hw' (hw.1 trivial)
    obtain ⟨w, hww⟩ := (C13_writer_accepts_iff z c info (withSentinels ns ws rs)).1.2
      (by rw [realOnes_withSentinels]; exact (layered_together _ _ _).2 hl)
    have hr := (written_reads hz hi hh (by rwa [realOnes_withSentinels]) hww).1
    rw [realOnes_withSentinels] at hr
    refine ⟨(w.close z).file, _, fun r => ?_, hr, ?_⟩
    · unfold ApidbToPbfF
      rw [e]
      constructor
      · rintro (⟨es'', it'', h', rfl⟩ | ⟨es'', s, h', hp, rfl⟩)
        · obtain ⟨rfl, rfl⟩ := Iterates.det h3 h'
          rw [hww]
          rfl
        · obtain ⟨s1, h4, h5⟩ := h3
          exact absurd hp (yields_stop h4 h5 h')
      · rintro rfl
        refine .inl ⟨_, it', h3, ?_⟩
        rw [hww]
        rfl
    · rw [List.forall₂_map_right_iff, List.forall₂_same]
      intro e he
      refine truncated_quant_of ?_ e he
      intro n hm
      obtain ⟨_, _, _, _, _, -, -, -, -, -, ns', ws', rs', o1, o2, o3, ⟨done, rest, _, f, _⟩, _, _, w, _, _, _, g⟩ := hgiv
      have g := g (w.1 trivial).1 (w.1 trivial).2.1 (w.1 trivial).2.2
      have : ns = ns' := by
        have e : ∀ (a : List Node) (b : List Way) (c : List Relation), (withSentinels a b c).filterMap (fun | .node n => some n | _ => none) = a := by
          intro a b c
          simp [withSentinels, List.filterMap_append, List.filterMap_map, Function.comp_def]
        rw [← e ns ws rs, g, e]
      subst this
      obtain ⟨i, hi, rfl⟩ := List.mem_iff_getElem.1 hm
      obtain ⟨uid, user, -, e⟩ := f.get (f.length_eq ▸ hi) hi
      simp only [List.get_eq_getElem] at e
      rw [e]
      exact ⟨div_onGrid _, div_onGrid _, div_inRange _, div_inRange _⟩

/-! ### An example: the dump of `RowExample` with a damaged line after the node and one after the end mark of its tags -/

theorem items_of_lists {α : Type} {row : Text → α → Prop} {bad : Text → Prop} {text : Text} {rs : List α} (h : Lists row text rs)
    {more : List (Option Text)} {items : List (Item α)} (hm : Items row bad more items) :
    Items row bad ((lines text).map some ++ more) (rs.map .row ++ items) := by
  unfold Lists at h
  generalize lines text = ls at h
  induction h with
  | nil => exact hm
  | cons h _ ih => exact .row h.1 h.2 ih

namespace AnyDumpExample

def got : Table → List (Option Text)
  | .nodes => (lines (RowExample.sorted .nodes)).map some ++ [some "oops".toList]
  | .nodeTags => (lines (RowExample.sorted .nodeTags)).map some ++ [some "\\.".toList, some "oops".toList, none]
  | t => (lines (RowExample.sorted t)).map some ++ []

def dump : AnyDump where
  users := RowExample.content.users.map .row ++ []
  changesets := RowExample.content.changesets.map .row ++ []
  nodes := RowExample.content.nodes.map .row ++ [.bad]
  nodeTags := RowExample.content.nodeTags.map .row ++ [.stop, .bad, .stop]
  ways := []
  wayNodes := []
  wayTags := []
  relations := []
  relationMembers := []
  relationTags := []

theorem bad (t : Table) (ht : t = .nodes ∨ t = .nodeTags) : BadRow t (RowExample.columns t) "oops".toList := by
  refine ⟨("version", AnyInt64), by rcases ht with rfl | rfl <;> simp [demands], ?_⟩
  rintro ⟨x, hc, -⟩
  unfold Cell at hc
  rcases ht with rfl | rfl
  · have e : (RowExample.columns .nodes).zip (split '\t' "oops".toList) = [("redaction_id".toList, "oops".toList)] := by decide +kernel
    rw [e] at hc
    simp at hc
  · have e : (RowExample.columns .nodeTags).zip (split '\t' "oops".toList) = [("node_id".toList, "oops".toList)] := by decide +kernel
    rw [e] at hc
    simp at hc

theorem shown : dump.Shown RowExample.z RowExample.columns got where
  users := items_of_lists RowExample.shown.users .nil
  changesets := items_of_lists RowExample.shown.changesets .nil
  nodes := items_of_lists RowExample.shown.nodes (.bad (by decide) (by decide) (bad _ (.inl rfl)) .nil)
  nodeTags := items_of_lists RowExample.shown.nodeTags (.mark (.inr (by decide)) (.bad (by decide) (by decide) (bad _ (.inr rfl)) (.failed .nil)))
  ways := items_of_lists RowExample.shown.ways .nil
  wayNodes := items_of_lists RowExample.shown.wayNodes .nil
  wayTags := items_of_lists RowExample.shown.wayTags .nil
  relations := items_of_lists RowExample.shown.relations .nil
  relationMembers := items_of_lists RowExample.shown.relationMembers .nil
  relationTags := items_of_lists RowExample.shown.relationTags .nil

theorem not_broken : ¬ Broken dump.users ∧ ¬ Broken dump.changesets := by
  refine ⟨?_, ?_⟩ <;>
  · show ¬ Broken (.row _ :: [])
    rw [broken_row]
    exact not_broken_nil

/-- One node is yielded, then reading panics. -/
theorem gives : ∃ n, dump.Gives [.node n] False ∧ n.id = 1 ∧ n.tags = [⟨"name", "x"⟩] := by
  obtain ⟨uid, user, ho⟩ : ∃ uid user, dump.seen.owner 7 = some (uid, user) := ⟨8, "Me", by decide +kernel⟩
  let n : Node := { dump.seen.node ⟨1, 10, -5, 7, true, 951868798250000000, 1, 3, none⟩ uid user with tags := rowTags [⟨1, 3, "name", "x"⟩] }
  refine ⟨n, ⟨_, _, _, _, _, dealtAny_deal _ _ _ _, dealtAny_deal _ _ _ _, dealtAny_deal _ _ _ _, dealtAny_deal _ _ _ _,
    dealtAny_deal _ _ _ _, [n], [], [], False, True, True, ?_, phase_nil rfl not_broken_nil, phase_nil rfl not_broken_nil, by simp,
    fun _ => rfl, fun h => h.elim, fun h => h.elim, fun h => h.elim⟩, rfl, rfl⟩
  have e : dealI nodeKey tagKey dump.seen.nodes dump.nodeTags = [[⟨1, 3, "name", "x"⟩]] := by decide +kernel
  rw [e]
  exact phase_cons _ ⟨uid, user, ho, rfl⟩ (phase_bad _)

end AnyDumpExample

end OsmIo
