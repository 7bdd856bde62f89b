import Verif.Lemmas.FailingTables
import Verif.Props.ApidbShown
/-!
# Dumps some lines of which cannot be read (C88)
-/
namespace OsmIo
open Text Sql Apidb Spec

/-! ### Shares -/

theorem takeOwn_app {β : Type} (mine : β → Bool) (share : List β) (rest : List (Option β)) (h : ∀ q ∈ share, mine q = true) :
    takeOwn mine (share.map some ++ rest) = (share ++ (takeOwn mine rest).1, (takeOwn mine rest).2) := by
  induction share with
  | nil => rfl
  | cons q share ih =>
    have hq := h q (by simp)
    simp only [List.map_cons, List.cons_append, takeOwn, hq, if_true]
    rw [ih fun q hq => h q (by simp [hq])]

/-- The shares are determined. -/
theorem dealtPast_unique {α β : Type} {ok : α → Int64 × Int64} {pk : β → Int64 × Int64} {os : List α} {rows : List (Option β)}
    {shares : List (List β)} {lost : List (Option β)} (h : DealtPast ok pk os rows shares lost) :
    shares = dealF ok pk os rows ∧ lost = dealRestF ok pk os rows := by
  induction h with
  | nil => exact ⟨rfl, rfl⟩
  | other o os share p rows shares lost h1 h2 h3 ih =>
    have e := takeOwn_app (fun p => decide (pk p = ok o)) share (some p :: rows) (by simpa using h1)
    have e2 : takeOwn (fun p => decide (pk p = ok o)) (some p :: rows) = ([], some p :: rows) := by simp [takeOwn, h2]
    rw [e2] at e
    simp only [dealF, dealRestF, e, List.append_nil]
    exact ⟨by rw [← ih.1], ih.2⟩
  | failure o os share rows shares lost h1 h3 ih =>
    have e := takeOwn_app (fun p => decide (pk p = ok o)) share (none :: rows) (by simpa using h1)
    simp only [takeOwn, List.append_nil] at e
    simp only [dealF, dealRestF, e]
    exact ⟨by rw [← ih.1], ih.2⟩
  | last o os share shares lost h1 h3 ih =>
    have e := takeOwn_app (fun p => decide (pk p = ok o)) share [] (by simpa using h1)
    simp only [takeOwn, List.append_nil] at e
    simp only [dealF, dealRestF, e]
    exact ⟨by rw [← ih.1], ih.2⟩

/-- C88: wherever reads fail, an object gets only rows of its own, and the rows that are given out are rows that can be read,
each at most once and in the order of the table. -/
theorem C88_own {α β : Type} (objectKey : α → Int64 × Int64) (partKey : β → Int64 × Int64) (objects : List α)
    (rows : List (Option β)) (shares : List (List β)) (lost : List (Option β))
    (h : DealtPast objectKey partKey objects rows shares lost) :
    List.Forall₂ (fun o share => ∀ p ∈ share, partKey p = objectKey o) objects shares ∧ shares.flatten.Sublist (readable rows) := by
  have fm : ∀ share : List β, List.filterMap id (share.map some) = share := by
    intro share
    induction share with
    | nil => rfl
    | cons a l ih => simp [ih]
  unfold readable
  induction h with
  | nil => exact ⟨.nil, List.nil_sublist _⟩
  | other o os share p rows shares lost h1 h2 h3 ih =>
    refine ⟨.cons h1 ih.1, ?_⟩
    rw [List.filterMap_append, fm, List.flatten_cons]
    exact (List.Sublist.refl _).append ih.2
  | failure o os share rows shares lost h1 h3 ih =>
    refine ⟨.cons h1 ih.1, ?_⟩
    rw [List.filterMap_append, fm, List.flatten_cons]
    exact (List.Sublist.refl _).append (by simpa using ih.2)
  | last o os share shares lost h1 h3 ih =>
    refine ⟨.cons h1 ih.1, ?_⟩
    rw [fm, List.flatten_cons]
    have := ih.2
    simp only [List.filterMap_nil, List.sublist_nil] at this
    rw [this]
    simp

theorem takeOwn_trail {β : Type} (mine : β → Bool) (ps : List β) (k : Nat) :
    ∃ k', takeOwn mine (ps.map some ++ List.replicate k none) =
      (ps.takeWhile mine, (ps.dropWhile mine).map some ++ List.replicate k' none) := by
  induction ps with
  | nil =>
    cases k with
    | zero => exact ⟨0, rfl⟩
    | succ k => exact ⟨k, by simp [takeOwn, List.replicate_succ]⟩
  | cons p ps ih =>
    obtain ⟨k', e⟩ := ih
    cases hm : mine p
    · exact ⟨k, by simp [takeOwn, hm]⟩
    · exact ⟨k', by simp [takeOwn, hm, e]⟩

theorem deal_trail {α β : Type} (ok : α → Int64 × Int64) (pk : β → Int64 × Int64) (os : List α) :
    ∀ (ps : List β) (k : Nat), dealF ok pk os (ps.map some ++ List.replicate k none) = deal ok pk os ps := by
  induction os with
  | nil => intro ps k; rfl
  | cons o os ih =>
    intro ps k
    obtain ⟨k', e⟩ := takeOwn_trail (fun p => decide (pk p = ok o)) ps k
    simp only [dealF, deal, e, ih]

/-- C88: when all reads of a table fail from some row on, the objects share the rows before it as if there were no others. -/
theorem C88_from_here_on {α β : Type} (objectKey : α → Int64 × Int64) (partKey : β → Int64 × Int64) (objects : List α)
    (rows : List β) (k : Nat) (shares : List (List β)) (lost : List (Option β))
    (h : DealtPast objectKey partKey objects (rows.map some ++ List.replicate k none) shares lost) :
    ∃ rest, Dealt objects objectKey rows partKey shares rest := by
  obtain ⟨rfl, -⟩ := dealtPast_unique h
  rw [deal_trail]
  exact ⟨_, dealt_deal _ _ _ _⟩

theorem takeOwn_before {β : Type} (mine : β → Bool) (ps : List β) (after : List (Option β)) (h : ps.dropWhile mine ≠ []) :
    takeOwn mine (ps.map some ++ after) = (ps.takeWhile mine, (ps.dropWhile mine).map some ++ after) := by
  induction ps with
  | nil => simp at h
  | cons p ps ih =>
    cases hm : mine p
    · simp [takeOwn, hm]
    · simp only [List.dropWhile_cons, hm, if_true] at h
      simp [takeOwn, hm, ih h]

theorem deal_before {α β : Type} (ok : α → Int64 × Int64) (pk : β → Int64 × Int64) (more : List α) (after : List (Option β)) (os : List α) :
    ∀ ps : List β, dealRest ok pk os ps ≠ [] →
      (dealF ok pk (os ++ more) (ps.map some ++ after)).take os.length = deal ok pk os ps := by
  induction os with
  | nil => intro ps _; rfl
  | cons o os ih =>
    intro ps h
    simp only [dealRest] at h
    have hne : ps.dropWhile (fun p => decide (pk p = ok o)) ≠ [] := by
      intro e
      rw [e] at h
      exact h (List.append_eq_nil_iff.1 (deal_flatten ok pk os []).symm).2
    simp only [List.cons_append, dealF, deal, takeOwn_before _ _ _ hne, List.length_cons, List.take_succ_cons, ih _ h]

/-- C88: up to the first read that fails nothing changes: as long as objects leave some of the rows before it, they get the rows
they get when no read fails, whatever follows. -/
theorem C88_before {α β : Type} (objectKey : α → Int64 × Int64) (partKey : β → Int64 × Int64) (objects more : List α)
    (rows : List β) (after : List (Option β)) (shares : List (List β)) (lost : List (Option β)) (full : List (List β)) (rest : List β)
    (h : DealtPast objectKey partKey (objects ++ more) (rows.map some ++ after) shares lost)
    (hd : Dealt objects objectKey rows partKey full rest) (hne : rest ≠ []) :
    shares.take objects.length = full := by
  obtain ⟨rfl, -⟩ := dealtPast_unique h
  obtain ⟨rfl, rfl⟩ := dealt_unique hd
  exact deal_before _ _ _ _ _ _ hne

/-! ### Whole dumps -/

theorem gotBuild {α : Type} {build : Text → Out α} {row : Text → α → Prop} {ls : List (Option Text)} {rs : List (Option α)}
    (hb : ∀ l r, row l r → l ≠ [] ∧ build l = .ok r) (h : Got row ls rs) : ReadsF build ls rs :=
  Got.mono h fun l r h1 h2 => ⟨stopLine_false.2 ⟨(hb l r h2).1, h1⟩, (hb l r h2).2⟩

theorem ownerF_eq {it : ElementIteratorF} {us : List (Int64 × String)} {cs : List (Int64 × Int64)}
    (hu : it.userIndex = insertAll us []) (hc : it.changesetIndex = insertAll cs []) (k : Int64) :
    it.owner k = Out.unwrap (match lastValue cs k with
      | none => none
      | some uid => (lastValue us uid).map fun name => (uid, name)) := by
  have := owner_eq (it := ⟨it.fields, it.userIndex, it.changesetIndex, .start, [], ⟨none, []⟩, [], ⟨none, []⟩, ⟨none, []⟩, [],
    ⟨none, []⟩, ⟨none, []⟩⟩) hu hc k
  refine Eq.trans ?_ (this.trans ?_)
  · rfl
  · cases lastValue cs k <;> rfl

/-- What a new iterator over a dump with failures holds. -/
theorem newF_of_shown {z : Codec} {columns : Table → List Text} {tables : Tables} (hn : Names columns tables)
    {got : Table → List (Option Text)} {p : Patchy} (h : p.Shown z columns got) :
    ∃ it, ElementIteratorF.new tables got = .ok it ∧ it.state = .start ∧
      ReadsF (createNode it.fields.nodes) it.nodes p.nodes ∧
      it.nodeTags.Holds (createNodeTag z it.fields.nodeTags) p.nodeTags ∧
      ReadsF (createObject it.fields.ways) it.ways p.ways ∧
      it.wayTags.Holds (createObjectTag z it.fields.wayTags) p.wayTags ∧
      it.wayNodes.Holds (createWayNode it.fields.wayNodes) p.wayNodes ∧
      ReadsF (createObject it.fields.relations) it.relations p.relations ∧
      it.relationTags.Holds (createObjectTag z it.fields.relationTags) p.relationTags ∧
      it.relationMembers.Holds (createMember z it.fields.relationMembers) p.relationMembers ∧
      ∀ it₁ : ElementIteratorF, it₁.userIndex = it.userIndex → it₁.changesetIndex = it.changesetIndex →
        ∀ k, it₁.owner k = Out.unwrap (p.seen.owner k) := by
  have get : ∀ t ∈ [Table.nodes, .nodeTags, .ways, .wayNodes, .wayTags, .relations, .relationMembers,
      .relationTags, .changesets, .users], ∃ d f, tables t = some (d, f) ∧ TableDef.new t (columns t) = .ok d := by
    intro t ht
    obtain ⟨⟨d, f⟩, e⟩ := Option.isSome_iff_exists.1 (hn.present t ht)
    exact ⟨d, f, e, hn.defines t d f e⟩
  obtain ⟨du, fu, tu, eu⟩ := get .users (by decide)
  obtain ⟨dc, fc, tc, ec⟩ := get .changesets (by decide)
  obtain ⟨d1, f1, t1, e1⟩ := get .nodes (by decide)
  obtain ⟨d2, f2, t2, e2⟩ := get .nodeTags (by decide)
  obtain ⟨d3, f3, t3, e3⟩ := get .ways (by decide)
  obtain ⟨d4, f4, t4, e4⟩ := get .wayNodes (by decide)
  obtain ⟨d5, f5, t5, e5⟩ := get .wayTags (by decide)
  obtain ⟨d6, f6, t6, e6⟩ := get .relations (by decide)
  obtain ⟨d7, f7, t7, e7⟩ := get .relationMembers (by decide)
  obtain ⟨d8, f8, t8, e8⟩ := get .relationTags (by decide)
  have hu : ReadsF (createUser du.fields) (got .users) p.users := gotBuild (fun l r hr => ⟨by
    obtain ⟨_, c1, _⟩ := hr.id
    exact line_ne_nil (by decide) c1 hr.name, C67_user _ (hn.nodup _) du eu l r hr⟩) h.users
  have hc : ReadsF (createChangeset dc.fields) (got .changesets) p.changesets := gotBuild (fun l r hr => ⟨by
    obtain ⟨_, c1, _⟩ := hr.id
    obtain ⟨_, c2, _⟩ := hr.user
    exact line_ne_nil (by decide) c1 c2, C67_changeset _ (hn.nodup _) dc ec l r hr⟩) h.changesets
  have h1 : ReadsF (createNode d1.fields) (got .nodes) p.nodes := gotBuild (fun l r hr => ⟨by
    obtain ⟨_, c1, _⟩ := hr.id
    obtain ⟨_, c2, _⟩ := hr.version
    exact line_ne_nil (by decide) c1 c2, C67_node _ (hn.nodup _) d1 e1 l r hr⟩) h.nodes
  have h2 : ReadsF (createNodeTag z d2.fields) (got .nodeTags) p.nodeTags := gotBuild (fun l r hr => ⟨by
    obtain ⟨_, c1, _⟩ := hr.id
    obtain ⟨_, c2, _⟩ := hr.version
    exact line_ne_nil (by decide) c1 c2, C67_node_tag z _ (hn.nodup _) d2 e2 l r hr⟩) h.nodeTags
  have h3 : ReadsF (createObject d3.fields) (got .ways) p.ways := gotBuild (fun l r hr => ⟨by
    obtain ⟨_, c1, _⟩ := hr.id
    obtain ⟨_, c2, _⟩ := hr.version
    exact line_ne_nil (by decide) c1 c2, C67_way _ (hn.nodup _) d3 e3 l r hr⟩) h.ways
  have h4 : ReadsF (createWayNode d4.fields) (got .wayNodes) p.wayNodes := gotBuild (fun l r hr => ⟨by
    obtain ⟨_, c1, _⟩ := hr.way
    obtain ⟨_, c2, _⟩ := hr.version
    exact line_ne_nil (by decide) c1 c2, C67_way_node _ (hn.nodup _) d4 e4 l r hr⟩) h.wayNodes
  have h5 : ReadsF (createObjectTag z d5.fields) (got .wayTags) p.wayTags := gotBuild (fun l r hr => ⟨by
    obtain ⟨_, c1, _⟩ := hr.id
    obtain ⟨_, c2, _⟩ := hr.version
    exact line_ne_nil (by decide) c1 c2, C67_object_tag z _ (hn.nodup _) d5 l r (.inl ⟨e5, hr⟩)⟩) h.wayTags
  have h6 : ReadsF (createObject d6.fields) (got .relations) p.relations := gotBuild (fun l r hr => ⟨by
    obtain ⟨_, c1, _⟩ := hr.id
    obtain ⟨_, c2, _⟩ := hr.version
    exact line_ne_nil (by decide) c1 c2, C67_relation _ (hn.nodup _) d6 e6 l r hr⟩) h.relations
  have h7 : ReadsF (createMember z d7.fields) (got .relationMembers) p.relationMembers := gotBuild (fun l r hr => ⟨by
    obtain ⟨_, c1, _⟩ := hr.relation
    obtain ⟨_, c2, _⟩ := hr.version
    exact line_ne_nil (by decide) c1 c2, C67_member z _ (hn.nodup _) d7 e7 l r hr⟩) h.relationMembers
  have h8 : ReadsF (createObjectTag z d8.fields) (got .relationTags) p.relationTags := gotBuild (fun l r hr => ⟨by
    obtain ⟨_, c1, _⟩ := hr.id
    obtain ⟨_, c2, _⟩ := hr.version
    exact line_ne_nil (by decide) c1 c2, C67_object_tag z _ (hn.nodup _) d8 l r (.inr ⟨e8, hr⟩)⟩) h.relationTags
  obtain ⟨it, hit, hnew⟩ : ∃ it : ElementIteratorF, it =
      { fields := ⟨d1.fields, d2.fields, d3.fields, d4.fields, d5.fields, d6.fields, d7.fields, d8.fields⟩
        userIndex := insertAll (before p.users) []
        changesetIndex := insertAll (before p.changesets) []
        state := .start
        nodes := got .nodes
        nodeTags := { lines := got .nodeTags }
        ways := got .ways
        wayTags := { lines := got .wayTags }
        wayNodes := { lines := got .wayNodes }
        relations := got .relations
        relationTags := { lines := got .relationTags }
        relationMembers := { lines := got .relationMembers } } ∧
      ElementIteratorF.new tables got = .ok it := by
    refine ⟨_, rfl, ?_⟩
    unfold ElementIteratorF.new
    simp only [tu, tc, t1, t2, t3, t4, t5, t6, t7, t8, Out.unwrap_some, Out.orErr_some, Out.ok_bind,
      tableAllF_reads hu, tableAllF_reads hc, Out.pure_eq]
  refine ⟨it, hnew, by subst hit; rfl, by subst hit; exact h1, by subst hit; exact ⟨_, h2, rfl⟩,
    by subst hit; exact h3, by subst hit; exact ⟨_, h5, rfl⟩, by subst hit; exact ⟨_, h4, rfl⟩,
    by subst hit; exact h6, by subst hit; exact ⟨_, h8, rfl⟩, by subst hit; exact ⟨_, h7, rfl⟩, ?_⟩
  intro it₁ e1 e2 k
  subst hit
  rw [ownerF_eq e1 e2]
  unfold Content.owner
  show _ = Out.unwrap (match lastValue (before p.changesets) k with | none => none | some uid => (lastValue (before p.users) uid).map _)
  cases lastValue (before p.changesets) k <;> rfl

theorem yieldsF_start {z : Codec} {it it' : ElementIteratorF} {es : List Element} (hst : it.state = .start)
    (hne : es ≠ []) (h : Yields (ElementIteratorF.next z) { it with state := .nodes } es it') :
    Yields (ElementIteratorF.next z) it es it' := by
  cases h with
  | nil => exact absurd rfl hne
  | cons h1 h2 =>
    refine .cons ?_ h2
    rw [← h1]
    simp [ElementIteratorF.next, hst]

theorem panicF_start {z : Codec} {it s : ElementIteratorF} {es : List Element} (hst : it.state = .start)
    (h : Yields (ElementIteratorF.next z) { it with state := .nodes } es s) (hp : ElementIteratorF.next z s = .panic) :
    ∃ s', Yields (ElementIteratorF.next z) it es s' ∧ ElementIteratorF.next z s' = .panic := by
  by_cases hne : es = []
  · subst hne
    cases h
    refine ⟨it, .nil _, ?_⟩
    rw [← hp]
    simp [ElementIteratorF.next, hst]
  · exact ⟨s, yieldsF_start hst hne h, hp⟩

theorem forall₂_zip_mem {α β γ : Type} {R : α × β → γ → Prop} {l : List α} {m : List β} {ns : List γ} (h : List.Forall₂ R (l.zip m) ns)
    (hl : l.length = m.length) : ∀ r ∈ l, ∃ x n, R (r, x) n := by
  intro r hr
  obtain ⟨i, hi, rfl⟩ := List.mem_iff_getElem.1 hr
  have hz : i < (l.zip m).length := by simp; omega
  have hN : i < ns.length := h.length_eq ▸ hz
  have := h.get hz hN
  simp only [List.get_eq_getElem, List.getElem_zip] at this
  exact ⟨_, _, this⟩

/-- C88: a dump, any lines of which cannot be read. A failing read of a table of users, changesets, nodes, ways or relations is
taken for the end of that table; a failing read of another table ends the share of the object that comes upon it. If the changeset
of each object before the first failure of its table belongs to a user, both being before the first failure of theirs, reading
ends as usual, without any error; otherwise it panics. -/
theorem C88_read (z : Codec) (columns : Table → List Text) (tables : Tables) (hn : Names columns tables)
    (got : Table → List (Option Text)) (p : Patchy) (h : p.Shown z columns got) :
    ∃ it, ElementIteratorF.new tables got = .ok it ∧
      (p.seen.AllOwned → ∃ it' ns ws rs, Iterates (ElementIteratorF.next z) it (withSentinels ns ws rs) it' ∧ p.Elements ns ws rs) ∧
      (¬ p.seen.AllOwned → ∃ es s, Yields (ElementIteratorF.next z) it es s ∧ ElementIteratorF.next z s = .panic) := by
  obtain ⟨it, hnew, hst, h1, h2, h3, h5, h4, h6, h8, h7, howner⟩ := newF_of_shown hn h
  have back : ∀ it₁ : ElementIteratorF, it₁.userIndex = it.userIndex → it₁.changesetIndex = it.changesetIndex →
      ∀ k q, it₁.owner k = .ok q → p.seen.owner k = some q := by
    intro it₁ e1 e2 k q hk
    rw [howner it₁ e1 e2] at hk
    exact unwrap_eq_ok.1 hk
  have none' : ∀ it₁ : ElementIteratorF, it₁.userIndex = it.userIndex → it₁.changesetIndex = it.changesetIndex →
      ∀ k, it₁.owner k = .panic → ¬ (p.seen.owner k).isSome := by
    intro it₁ e1 e2 k hk hs
    rw [howner it₁ e1 e2] at hk
    obtain ⟨q, e⟩ := Option.isSome_iff_exists.1 hs
    rw [e] at hk
    simp at hk
  have main : (∃ it' ns ws rs, Iterates (ElementIteratorF.next z) it (withSentinels ns ws rs) it' ∧ p.Elements ns ws rs) ∨
      (¬ p.seen.AllOwned ∧ ∃ es s, Yields (ElementIteratorF.next z) it es s ∧ ElementIteratorF.next z s = .panic) := by
    rcases nodes_dealF z p.nodes { it with state := .nodes } p.nodeTags rfl h1 h2 with
      ⟨ns, a1, b1, f1, y1⟩ | ⟨r, hr, ho, es, s, hy, hp⟩
    swap
    · obtain ⟨s', hy', hp'⟩ := panicF_start hst hy hp
      exact .inr ⟨fun ha => none' _ rfl rfl _ ho (ha.nodes r hr), es, s', hy', hp'⟩
    have y1' := yieldsF_start hst (by simp) y1
    rcases ways_dealF z p.ways { it with state := .ways, nodes := a1, nodeTags := b1 } p.wayTags p.wayNodes rfl h3 h5 h4 with
      ⟨ws, a2, b2, c2, f2, y2⟩ | ⟨r, hr, ho, es, s, hy, hp⟩
    swap
    · exact .inr ⟨fun ha => none' _ rfl rfl _ ho (ha.ways r hr), _, s, Yields.append y1' hy, hp⟩
    rcases relations_dealF z p.relations
      { it with state := .relations, nodes := a1, nodeTags := b1, ways := a2, wayTags := b2, wayNodes := c2 }
      p.relationTags p.relationMembers rfl h6 h8 h7 with
      ⟨rs, a3, b3, c3, f3, y3⟩ | ⟨r, hr, ho, es, s, hy, hp⟩
    swap
    · exact .inr ⟨fun ha => none' _ rfl rfl _ ho (ha.relations r hr), _, s, Yields.append (Yields.append y1' y2) hy, hp⟩
    left
    let fin : ElementIteratorF := { it with
      state := .finished, nodes := a1, nodeTags := b1, ways := a2, wayTags := b2, wayNodes := c2,
      relations := a3, relationTags := b3, relationMembers := c3 }
    refine ⟨fin, ns, ws, rs, ⟨fin, ?_, rfl⟩, _, _, _, _, _, _, _, _, _, _, ⟨f1.imp ?_, f2.imp ?_, f3.imp ?_⟩,
      dealtPast_deal _ _ _ _, dealtPast_deal _ _ _ _, dealtPast_deal _ _ _ _, dealtPast_deal _ _ _ _, dealtPast_deal _ _ _ _⟩
    · have y := Yields.append (Yields.append y1' y2) y3
      have e : withSentinels ns ws rs = ns.map .node ++ [.sentinel] ++ (ws.map .way ++ [.sentinel]) ++
          (rs.map .relation ++ [.sentinel]) := by simp [withSentinels]
      rw [e]
      exact y
    · rintro ⟨r, ts⟩ n ⟨uid, user, ho, rfl⟩
      exact ⟨uid, user, back _ rfl rfl _ _ ho, rfl⟩
    · rintro ⟨r, ts, ps⟩ n ⟨uid, user, ho, rfl⟩
      exact ⟨uid, user, back _ rfl rfl _ _ ho, rfl⟩
    · rintro ⟨r, ts, ps⟩ n ⟨uid, user, ho, rfl⟩
      exact ⟨uid, user, back _ rfl rfl _ _ ho, rfl⟩
  refine ⟨it, hnew, ?_, ?_⟩
  · intro ha
    rcases main with hm | ⟨hno, -⟩
    · exact hm
    · exact absurd ha hno
  · intro hna
    rcases main with ⟨it', ns, ws, rs, -, nt, wt, rt, wn, ms, l1, l2, l3, l4, l5, hj, d1, d2, d3, d4, d5⟩ | ⟨-, hm⟩
    · exfalso
      apply hna
      have g1 := (C88_own _ _ _ _ _ _ d1).1.length_eq
      have g2 := (C88_own _ _ _ _ _ _ d2).1.length_eq
      have g3 := (C88_own _ _ _ _ _ _ d3).1.length_eq
      have g4 := (C88_own _ _ _ _ _ _ d4).1.length_eq
      have g5 := (C88_own _ _ _ _ _ _ d5).1.length_eq
      refine ⟨fun r hr => ?_, fun r hr => ?_, fun r hr => ?_⟩
      · obtain ⟨_, _, uid, user, e, -⟩ := forall₂_zip_mem hj.nodes g1 r hr
        rw [e]; rfl
      · obtain ⟨_, _, uid, user, e, -⟩ := forall₂_zip_mem hj.ways (by simp; omega) r hr
        rw [e]; rfl
      · obtain ⟨_, _, uid, user, e, -⟩ := forall₂_zip_mem hj.relations (by simp; omega) r hr
        rw [e]; rfl
    · exact hm

theorem before_failFrom {α : Type} (rs : List α) (n k : Nat) : before (failFrom rs n k) = rs.take n := by
  unfold failFrom
  generalize rs.take n = l
  induction l with
  | nil => cases k <;> rfl
  | cons a l ih => simpa [before] using ih

theorem readable_failFrom {α : Type} (rs : List α) (n k : Nat) : readable (failFrom rs n k) = rs.take n := by
  unfold failFrom readable
  generalize rs.take n = l
  induction l with
  | nil => simp
  | cons a l ih => simpa using ih

theorem seen_failing (c : Content) (n k : Table → Nat) : (c.failing n k).seen = c.cut n := by
  simp [Content.failing, Patchy.seen, Content.cut, before_failFrom, readable_failFrom]

theorem forall₂_functional {α β : Type} {R : α → β → Prop} (hR : ∀ a b b', R a b → R a b' → b = b') {l : List α} {m m' : List β}
    (h : List.Forall₂ R l m) (h' : List.Forall₂ R l m') : m = m' := by
  induction h generalizing m' with
  | nil => cases h'; rfl
  | cons h1 _ ih => cases h' with | cons h2 h3 => rw [hR _ _ _ h1 h2, ih h3]

/-- The elements are determined by the shares. -/
theorem joined_unique {c : Content} {ns ns' : List Node} {ws ws' : List Way} {rs rs' : List Relation}
    {nt wt rt : List (List TagRecord)} {wn : List (List WayNodeRecord)} {ms : List (List MemberRecord)}
    (h : c.Joined ns ws rs nt wt rt wn ms) (h' : c.Joined ns' ws' rs' nt wt rt wn ms) : ns = ns' ∧ ws = ws' ∧ rs = rs' := by
  refine ⟨forall₂_functional ?_ h.nodes h'.nodes, forall₂_functional ?_ h.ways h'.ways, forall₂_functional ?_ h.relations h'.relations⟩
  all_goals
    rintro a b b' ⟨uid, user, e, rfl⟩ ⟨uid', user', e', rfl⟩
    rw [e] at e'
    cases e'
    rfl

/-- The elements of a dump with failures are determined. -/
theorem patchy_unique {p : Patchy} {ns ns' : List Node} {ws ws' : List Way} {rs rs' : List Relation}
    (h : p.Elements ns ws rs) (h' : p.Elements ns' ws' rs') : ns = ns' ∧ ws = ws' ∧ rs = rs' := by
  obtain ⟨_, _, _, _, _, _, _, _, _, _, hj, d1, d2, d3, d4, d5⟩ := h
  obtain ⟨_, _, _, _, _, _, _, _, _, _, hj', d1', d2', d3', d4', d5'⟩ := h'
  rw [(dealtPast_unique d1).1, (dealtPast_unique d2).1, (dealtPast_unique d3).1, (dealtPast_unique d4).1, (dealtPast_unique d5).1] at hj
  rw [(dealtPast_unique d1').1, (dealtPast_unique d2').1, (dealtPast_unique d3').1, (dealtPast_unique d4').1, (dealtPast_unique d5').1] at hj'
  exact joined_unique hj hj'

theorem elements_owned {p : Patchy} {ns : List Node} {ws : List Way} {rs : List Relation} (h : p.Elements ns ws rs) : p.seen.AllOwned := by
  obtain ⟨nt, wt, rt, wn, ms, l1, l2, l3, l4, l5, hj, d1, d2, d3, d4, d5⟩ := h
  have g1 := (C88_own _ _ _ _ _ _ d1).1.length_eq
  have g2 := (C88_own _ _ _ _ _ _ d2).1.length_eq
  have g3 := (C88_own _ _ _ _ _ _ d3).1.length_eq
  have g4 := (C88_own _ _ _ _ _ _ d4).1.length_eq
  have g5 := (C88_own _ _ _ _ _ _ d5).1.length_eq
  refine ⟨fun r hr => ?_, fun r hr => ?_, fun r hr => ?_⟩
  · obtain ⟨_, _, uid, user, e, -⟩ := forall₂_zip_mem hj.nodes g1 r hr
    rw [e]; rfl
  · obtain ⟨_, _, uid, user, e, -⟩ := forall₂_zip_mem hj.ways (by simp; omega) r hr
    rw [e]; rfl
  · obtain ⟨_, _, uid, user, e, -⟩ := forall₂_zip_mem hj.relations (by simp; omega) r hr
    rw [e]; rfl

/-- C88: a dump each table of which cannot be read from some row on gives exactly the elements that a sound dump with only the rows
before gives, and panics when that one does. -/
theorem C88_cut (z : Codec) (columns : Table → List Text) (tables : Tables) (hn : Names columns tables) (c : Content) (n k : Table → Nat)
    (got : Table → List (Option Text)) (h : (c.failing n k).Shown z columns got)
    (sorted : Table → Text) (hs : (c.cut n).Shown z columns sorted) :
    ∃ itF it, ElementIteratorF.new tables got = .ok itF ∧ ElementIterator.new tables sorted = .ok it ∧
      (∀ es, (∃ itF', Iterates (ElementIteratorF.next z) itF es itF') ↔ ∃ it', Iterates (ElementIterator.next z) it es it') ∧
      ((∃ es s, Yields (ElementIteratorF.next z) itF es s ∧ ElementIteratorF.next z s = .panic) ↔
        ∃ es s, Yields (ElementIterator.next z) it es s ∧ ElementIterator.next z s = .panic) := by
  obtain ⟨itF, hnewF, hF1, hF2⟩ := C88_read z columns tables hn got _ h
  obtain ⟨it, hnew, -, -, h2⟩ := C44_shown z columns tables hn sorted _ hs
  rw [seen_failing] at hF1 hF2
  refine ⟨itF, it, hnewF, hnew, ?_⟩
  by_cases ha : (c.cut n).AllOwned
  · obtain ⟨itF', ns, ws, rs, hy, hel⟩ := hF1 ha
    obtain ⟨it1, it', ns', ws', rs', hnew1, hy', nt, wt, rt, wn, ms, l1, l2, l3, l4, l5, hj, d1, d2, d3, d4, d5⟩ :=
      C77_dealt z columns tables hn sorted _ hs ha
    rw [hnew] at hnew1
    cases hnew1
    have e : ns = ns' ∧ ws = ws' ∧ rs = rs' := by
      obtain ⟨_, _, _, _, _, _, _, _, _, _, hj', d1', d2', d3', d4', d5'⟩ := hel
      rw [seen_failing] at hj' d1' d2' d3' d4' d5'
      obtain ⟨_, g1⟩ := C88_from_here_on _ _ _ _ _ _ _ d1'
      obtain ⟨_, g2⟩ := C88_from_here_on _ _ _ _ _ _ _ d2'
      obtain ⟨_, g3⟩ := C88_from_here_on _ _ _ _ _ _ _ d3'
      obtain ⟨_, g4⟩ := C88_from_here_on _ _ _ _ _ _ _ d4'
      obtain ⟨_, g5⟩ := C88_from_here_on _ _ _ _ _ _ _ d5'
      rw [(dealt_unique g1).1, (dealt_unique g2).1, (dealt_unique g3).1, (dealt_unique g4).1, (dealt_unique g5).1] at hj'
      rw [(dealt_unique d1).1, (dealt_unique d2).1, (dealt_unique d3).1, (dealt_unique d4).1, (dealt_unique d5).1] at hj
      exact joined_unique hj' hj
    obtain ⟨rfl, rfl, rfl⟩ := e
    refine ⟨fun es => ⟨?_, ?_⟩, ⟨?_, ?_⟩⟩
    · rintro ⟨s, hes⟩
      rw [(Iterates.det hes hy).1]
      exact ⟨it', hy'⟩
    · rintro ⟨s, hes⟩
      rw [(Iterates.det hes hy').1]
      exact ⟨itF', hy⟩
    · rintro ⟨es, s, y1, y2⟩
      obtain ⟨s1, y3, y4⟩ := hy
      exact absurd (.inl y2) (yields_stop y3 y4 y1)
    · rintro ⟨es, s, y1, y2⟩
      obtain ⟨s1, y3, y4⟩ := hy'
      exact absurd (.inl y2) (yields_stop y3 y4 y1)
  · obtain ⟨es, s, y1, y2⟩ := hF2 ha
    obtain ⟨g1, g2⟩ := h2 ha
    refine ⟨fun es' => ⟨?_, fun h => absurd ⟨es', h⟩ g1⟩, fun _ => g2, fun _ => ⟨es, s, y1, y2⟩⟩
    rintro ⟨s', s1, y3, y4⟩
    exact absurd (.inl y2) (yields_stop y3 y4 y1)

/-- C88: a dump none of whose objects can be read is read like an empty one, without any error. -/
theorem C88_silent (z : Codec) (columns : Table → List Text) (tables : Tables) (hn : Names columns tables)
    (got : Table → List (Option Text)) (p : Patchy) (h : p.Shown z columns got) (h1 : p.nodes.head? = some none)
    (h2 : p.ways.head? = some none) (h3 : p.relations.head? = some none) :
    ∃ it it', ElementIteratorF.new tables got = .ok it ∧
      Iterates (ElementIteratorF.next z) it [.sentinel, .sentinel, .sentinel] it' := by
  have hb : ∀ {α : Type} {l : List (Option α)}, l.head? = some none → before l = [] := by
    intro α l hl
    cases l with
    | nil => rfl
    | cons a l => simp at hl; subst hl; rfl
  obtain ⟨it, hnew, hF, -⟩ := C88_read z columns tables hn got p h
  have e1 : p.seen.nodes = [] := hb h1
  have e2 : p.seen.ways = [] := hb h2
  have e3 : p.seen.relations = [] := hb h3
  obtain ⟨it', ns, ws, rs, hy, nt, wt, rt, wn, ms, l1, l2, l3, l4, l5, hj, -⟩ := hF ⟨by simp [e1], by simp [e2], by simp [e3]⟩
  have f1 := hj.nodes
  have f2 := hj.ways
  have f3 := hj.relations
  rw [e1] at f1
  rw [e2] at f2
  rw [e3] at f3
  simp only [List.zip_nil_left] at f1 f2 f3
  cases f1; cases f2; cases f3
  exact ⟨it, it', hnew, hy⟩

/-- C88: converting a dump with lines that cannot be read to a file ends without an error; the file holds the objects before the
first failure of their tables, each with its share. -/
theorem C88_program (z : Zlib) (hz : z.Lossless) (cod : Apidb.Codec) (columns : Table → List Text) (tables : Apidb.Tables)
    (hn : Names columns tables) (got : Table → List (Option Text)) (p : Patchy) (h : p.Shown cod columns got)
    (ns : List Node) (ws : List Way) (rs : List Relation) (hel : p.Elements ns ws rs)
    (info : FileInfo) (c : CompressionType) (hi : ¬ EmptyInfo info) (hh : HeaderFits z c info)
    (hl : rs ≠ [] → ws ≠ []) (hfit : RunsFit z c (together ns ws rs)) :
    ∃ out es, (∀ r, ApidbToPbfF z cod tables got info c r ↔ r = .ok out) ∧ ReadsElements z out es .done ∧
      List.Forall₂ Truncated (together ns ws rs) es := by
  obtain ⟨it, h1, hF, -⟩ := C88_read cod columns tables hn got p h
  obtain ⟨it', ns', ws', rs', h2, hel'⟩ := hF (elements_owned hel)
  obtain ⟨rfl, rfl, rfl⟩ := patchy_unique hel hel'
  obtain ⟨w, hw⟩ := (C13_writer_accepts_iff z c info (withSentinels ns ws rs)).1.2
    (by rw [realOnes_withSentinels]; exact (layered_together _ _ _).2 hl)
  have hr := (written_reads hz hi hh (by rwa [realOnes_withSentinels]) hw).1
  rw [realOnes_withSentinels] at hr
  refine ⟨(w.close z).file, _, fun r => ?_, hr, ?_⟩
  · unfold ApidbToPbfF
    rw [h1]
    constructor
    · rintro (⟨es', it'', h', rfl⟩ | ⟨es', s, h', hp, rfl⟩)
      · obtain ⟨rfl, rfl⟩ := Iterates.det h2 h'
        rw [hw]
        rfl
      · obtain ⟨s1, h3, h4⟩ := h2
        exact absurd hp (yields_stop h3 h4 h')
    · rintro rfl
      refine .inl ⟨_, it', h2, ?_⟩
      rw [hw]
      rfl
  · rw [List.forall₂_map_right_iff, List.forall₂_same]
    intro e he
    refine truncated_quant_of ?_ e he
    intro n hm
    obtain ⟨nt, _, _, _, _, _, _, _, _, _, hj, -⟩ := hel
    obtain ⟨i, hi, rfl⟩ := List.mem_iff_getElem.1 hm
    obtain ⟨uid, user, -, e⟩ := hj.nodes.get (hj.nodes.length_eq ▸ hi) hi
    simp only [List.get_eq_getElem] at e
    rw [e]
    exact ⟨div_onGrid _, div_onGrid _, div_inRange _, div_inRange _⟩

/-! ### An example: the dump of `RowExample`, the first read of whose table of tags fails -/

theorem got_of_lists {α : Type} {row : Text → α → Prop} {text : Text} {rs : List α} (h : Lists row text rs) :
    Got row ((lines text).map some) (rs.map some) := by
  unfold Lists at h
  generalize lines text = ls at h
  induction h with
  | nil => exact .nil
  | cons h _ ih => exact .row h.1 h.2 ih

namespace FailingTablesExample

def got : Table → List (Option Text)
  | .nodeTags => none :: (lines (RowExample.sorted .nodeTags)).map some
  | t => (lines (RowExample.sorted t)).map some

def patchy : Patchy where
  users := RowExample.content.users.map some
  changesets := RowExample.content.changesets.map some
  nodes := RowExample.content.nodes.map some
  nodeTags := none :: RowExample.content.nodeTags.map some
  ways := []
  wayNodes := []
  wayTags := []
  relations := []
  relationMembers := []
  relationTags := []

theorem shown : patchy.Shown RowExample.z RowExample.columns got where
  users := got_of_lists RowExample.shown.users
  changesets := got_of_lists RowExample.shown.changesets
  nodes := got_of_lists RowExample.shown.nodes
  nodeTags := .failed (got_of_lists RowExample.shown.nodeTags)
  ways := got_of_lists RowExample.shown.ways
  wayNodes := got_of_lists RowExample.shown.wayNodes
  wayTags := got_of_lists RowExample.shown.wayTags
  relations := got_of_lists RowExample.shown.relations
  relationMembers := got_of_lists RowExample.shown.relationMembers
  relationTags := got_of_lists RowExample.shown.relationTags

/-- The changeset of the node belongs to a user. -/
theorem owned : patchy.seen.AllOwned := ⟨by decide +kernel, by decide +kernel, by decide +kernel⟩

/-- The node comes without its tag, which is in the table and can be read. -/
example : ∀ share lost, DealtPast nodeKey tagKey patchy.seen.nodes patchy.nodeTags share lost → share = [[]] := by
  intro share lost h
  rw [(dealtPast_unique h).1]
  rfl

/-- All reads of the table of nodes fail: the dump seems to be empty. -/
example : (RowExample.content.failing (fun t => if t = .nodes then 0 else 9) (fun t => if t = .nodes then 5 else 0)).seen.nodes = [] ∧
    RowExample.content.nodes ≠ [] := by decide +kernel

end FailingTablesExample

end OsmIo
