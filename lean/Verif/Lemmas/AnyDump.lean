import Verif.Spec.AnyDump
import Verif.Lemmas.FailingTables
/-! Dumps of any lines. -/
namespace OsmIo.Apidb
open OsmIo.Text OsmIo.Sql OsmIo.Spec

/-- Results that give items. -/
abbrev ReadsI {α : Type} (build : Text → Out α) (ls : Results) (is : List (Item α)) : Prop :=
  Items (fun l r => stopLine l = false ∧ build l = .ok r) (fun l => stopLine l = false ∧ build l = .panic) ls is

theorem Items.mono {α : Type} {row row' : Text → α → Prop} {bad bad' : Text → Prop} {ls : List (Option Text)} {is : List (Item α)}
    (h : Items row bad ls is) (hr : ∀ l r, ¬ (['\\', '.'] <+: l) → row l r → row' l r)
    (hb : ∀ l, l ≠ [] → ¬ (['\\', '.'] <+: l) → bad l → bad' l) : Items row' bad' ls is := by
  induction h with
  | nil => exact .nil
  | row h1 h2 _ ih => exact .row h1 (hr _ _ h1 h2) ih
  | mark h1 _ ih => exact .mark h1 ih
  | failed _ ih => exact .failed ih
  | bad h1 h2 h3 _ ih => exact .bad h1 h2 (hb _ h1 h2 h3) ih

theorem stopLine_true {l : Text} (h : l = [] ∨ ['\\', '.'] <+: l) : stopLine l = true := by
  cases e : stopLine l with
  | true => rfl
  | false => obtain ⟨h1, h2⟩ := stopLine_false.1 e; rcases h with h | h <;> contradiction

theorem broken_bad {α : Type} (is : List (Item α)) : Broken (.bad :: is) := ⟨[], is, rfl⟩

theorem not_broken_nil {α : Type} : ¬ Broken ([] : List (Item α)) := by rintro ⟨rs, more, e⟩; simp at e

theorem not_broken_stop {α : Type} (is : List (Item α)) : ¬ Broken (.stop :: is) := by
  rintro ⟨rs, more, e⟩
  cases rs <;> simp at e

theorem broken_row {α : Type} (r : α) (is : List (Item α)) : Broken (.row r :: is) ↔ Broken is := by
  constructor
  · rintro ⟨rs, more, e⟩
    cases rs with
    | nil => simp at e
    | cons a rs => simp at e; exact ⟨rs, more, e.2⟩
  · rintro ⟨rs, more, rfl⟩
    exact ⟨r :: rs, more, rfl⟩

theorem tableAllF_items {α : Type} {build : Text → Out α} {ls : Results} {is : List (Item α)} (h : ReadsI build ls is) :
    (Broken is → tableAllF build ls = .panic) ∧ (¬ Broken is → tableAllF build ls = .ok (rowsOf is)) := by
  induction h with
  | nil => exact ⟨fun h => absurd h not_broken_nil, fun _ => rfl⟩
  | row _ h _ ih =>
    rw [broken_row]
    exact ⟨fun hb => by simp [tableAllF, h.1, h.2, ih.1 hb], fun hb => by simp [tableAllF, rowsOf, h.1, h.2, ih.2 hb]⟩
  | mark h _ _ => exact ⟨fun hb => absurd hb (not_broken_stop _), fun _ => by simp [tableAllF, stopLine_true h, rowsOf]⟩
  | failed _ _ => exact ⟨fun hb => absurd hb (not_broken_stop _), fun _ => rfl⟩
  | bad _ _ h _ _ => exact ⟨fun _ => by simp [tableAllF, h.1, h.2], fun hb => absurd (broken_bad _) hb⟩

/-- An object's share of what is left of a table, and what is left then; `none` if there is a damaged line. -/
def takeOwnI {β : Type} (mine : β → Bool) : List (Item β) → Option (List β × List (Item β))
  | [] => some ([], [])
  | .stop :: is => some ([], is)
  | .bad :: _ => none
  | .row r :: is => if mine r then (takeOwnI mine is).map fun x => (r :: x.1, x.2) else some ([], .row r :: is)

theorem gatherF_items {β : Type} {build : Text → Out β} (mine : β → Bool) {ls : Results} {is : List (Item β)}
    (h : ReadsI build ls is) :
    (takeOwnI mine is = none → gatherF build mine ls = .panic) ∧
    ∀ x, takeOwnI mine is = some x → ∃ next rest rest', gatherF build mine ls = .ok (x.1, next, rest) ∧ ReadsI build rest rest' ∧
      x.2 = next.toList.map .row ++ rest' := by
  induction h with
  | nil => exact ⟨(nomatch ·), fun x hx => by cases hx; exact ⟨none, [], [], rfl, .nil, rfl⟩⟩
  | @row l ls r is _ h hs ih =>
    simp only [gatherF, h.1, h.2, Out.ok_bind, Bool.false_eq_true, if_false]
    cases hm : mine r
    · refine ⟨by simp [takeOwnI, hm], fun x hx => ?_⟩
      simp [takeOwnI, hm] at hx
      subst hx
      exact ⟨some r, ls, is, by simp, hs, by simp⟩
    · refine ⟨fun hn => ?_, fun x hx => ?_⟩
      · simp [takeOwnI, hm] at hn
        simp [ih.1 hn]
      · simp only [takeOwnI, hm, if_true, Option.map_eq_some_iff] at hx
        obtain ⟨y, hy, rfl⟩ := hx
        obtain ⟨next, rest, rest', e1, e2, e3⟩ := ih.2 y hy
        exact ⟨next, rest, rest', by simp [e1], e2, e3⟩
  | @mark l ls is h hs _ =>
    refine ⟨(nomatch ·), fun x hx => ?_⟩
    simp [takeOwnI] at hx
    subst hx
    exact ⟨none, ls, is, by simp [gatherF, stopLine_true h], hs, rfl⟩
  | @failed ls is hs _ =>
    refine ⟨(nomatch ·), fun x hx => ?_⟩
    simp [takeOwnI] at hx
    subst hx
    exact ⟨none, ls, is, rfl, hs, rfl⟩
  | @bad l ls is _ _ h hs _ =>
    refine ⟨fun _ => by simp [gatherF, h.1, h.2], fun x hx => ?_⟩
    simp [takeOwnI] at hx

/-- The items a child table still has to deliver. -/
def ChildF.HoldsI {β : Type} (build : Text → Out β) (c : ChildF β) (is : List (Item β)) : Prop :=
  ∃ is', ReadsI build c.lines is' ∧ is = c.pending.toList.map .row ++ is'

theorem attachF_items {β : Type} {build : Text → Out β} (mine : β → Bool) {c : ChildF β} {is : List (Item β)}
    (h : c.HoldsI build is) :
    (takeOwnI mine is = none → attachF build mine c.pending c.lines = .panic) ∧
    ∀ x, takeOwnI mine is = some x →
      ∃ c' : ChildF β, attachF build mine c.pending c.lines = .ok (x.1, c'.pending, c'.lines) ∧ c'.HoldsI build x.2 := by
  obtain ⟨is', hr, rfl⟩ := h
  have hg := gatherF_items mine hr
  unfold attachF
  cases hp : c.pending with
  | none =>
    refine ⟨fun hn => hg.1 (by simpa using hn), fun x hx => ?_⟩
    obtain ⟨next, rest, rest', e1, e2, e3⟩ := hg.2 x (by simpa using hx)
    exact ⟨⟨next, rest⟩, by simp [e1], rest', e2, e3⟩
  | some r =>
    cases hm : mine r
    · refine ⟨by simp [takeOwnI, hm], fun x hx => ?_⟩
      simp [takeOwnI, hm] at hx
      subst hx
      exact ⟨⟨some r, c.lines⟩, by simp [hm], is', hr, by simp⟩
    · refine ⟨fun hn => ?_, fun x hx => ?_⟩
      · simp [takeOwnI, hm] at hn
        simp [hm, hg.1 hn]
      · simp only [Option.toList_some, List.map_cons, List.map_nil, List.cons_append, List.nil_append, takeOwnI, hm, if_true,
          Option.map_eq_some_iff] at hx
        obtain ⟨y, hy, rfl⟩ := hx
        obtain ⟨next, rest, rest', e1, e2, e3⟩ := hg.2 y hy
        exact ⟨⟨next, rest⟩, by simp [hm, e1], rest', e2, e3⟩

/-- The shares of the objects. -/
def dealI {α β : Type} (ok : α → Int64 × Int64) (pk : β → Int64 × Int64) : List α → List (Item β) → List (List β)
  | [], _ => []
  | o :: os, ps =>
    match takeOwnI (fun p => decide (pk p = ok o)) ps with
    | none => []
    | some x => x.1 :: dealI ok pk os x.2

theorem takeOwnI_cases {β : Type} (mine : β → Bool) (is : List (Item β)) :
    (takeOwnI mine is = none ∧ ∃ (share : List β) (more : List (Item β)), is = share.map .row ++ .bad :: more ∧ ∀ q ∈ share, mine q) ∨
    ∃ x, takeOwnI mine is = some x ∧ (∀ q ∈ x.1, mine q) ∧
      ((∃ p rows, is = x.1.map .row ++ .row p :: rows ∧ mine p = false ∧ x.2 = .row p :: rows) ∨
       is = x.1.map .row ++ .stop :: x.2 ∨ (is = x.1.map .row ∧ x.2 = [])) := by
  induction is with
  | nil => exact .inr ⟨_, rfl, by simp, .inr (.inr ⟨rfl, rfl⟩)⟩
  | cons i is ih =>
    cases i with
    | stop => exact .inr ⟨_, rfl, by simp, .inr (.inl rfl)⟩
    | bad => exact .inl ⟨rfl, [], is, rfl, by simp⟩
    | row r =>
      cases hm : mine r
      · exact .inr ⟨([], .row r :: is), by simp [takeOwnI, hm], by simp, .inl ⟨r, is, rfl, hm, rfl⟩⟩
      · rcases ih with ⟨e, share, more, rfl, hs⟩ | ⟨x, e, hs, h⟩
        · exact .inl ⟨by simp [takeOwnI, hm, e], r :: share, more, rfl, by simpa [hm] using hs⟩
        · refine .inr ⟨(r :: x.1, x.2), by simp [takeOwnI, hm, e], by simpa [hm] using hs, ?_⟩
          rcases h with ⟨p, rows, h1, h2, h3⟩ | h | ⟨h1, h2⟩
          · exact .inl ⟨p, rows, by rw [h1]; rfl, h2, h3⟩
          · refine .inr (.inl ?_)
            show Item.row r :: is = Item.row r :: (x.1.map .row ++ .stop :: x.2)
            rw [← h]
          · exact .inr (.inr ⟨by rw [h1]; rfl, h2⟩)

theorem dealtAny_deal {α β : Type} (ok : α → Int64 × Int64) (pk : β → Int64 × Int64) (os : List α) :
    ∀ ps, DealtAny ok pk os ps (dealI ok pk os ps) := by
  induction os with
  | nil => intro ps; exact .nil _
  | cons o os ih =>
    intro ps
    rcases takeOwnI_cases (fun p => decide (pk p = ok o)) ps with ⟨e, share, more, rfl, hs⟩ | ⟨x, e, hs, h⟩
    · simp only [dealI, e]
      exact .bad _ _ _ _ (by simpa using hs)
    · simp only [dealI, e]
      have hi := ih x.2
      rcases h with ⟨p, rows, rfl, h2, h3⟩ | rfl | ⟨rfl, h2⟩
      · rw [h3] at hi ⊢
        exact .other _ _ _ _ _ _ (by simpa using hs) (by simpa using h2) hi
      · exact .stop _ _ _ _ _ (by simpa using hs) hi
      · rw [h2] at hi ⊢
        exact .last _ _ _ _ (by simpa using hs) hi

/-! ### Phases -/

theorem phase_nil {ι ε α : Type} {made : ι → ε → Prop} {items : List (Item α)} (h1 : rowsOf items = []) (h2 : ¬ Broken items) :
    Phase made items [] [] True :=
  ⟨[], [], rfl, .nil, by simp, by simp [h1, h2]⟩

theorem phase_bad {ι ε α : Type} {made : ι → ε → Prop} (items : List (Item α)) : Phase made (.bad :: items) [] [] False :=
  ⟨[], [], rfl, .nil, by simp, by simp [broken_bad]⟩

theorem phase_short {ι ε α : Type} {made : ι → ε → Prop} (r : α) (items : List (Item α)) : Phase made (.row r :: items) [] [] False :=
  ⟨[], [], rfl, .nil, by simp, by simp [rowsOf]⟩

theorem phase_unowned {ι ε α : Type} {made : ι → ε → Prop} (items : List (Item α)) (x : ι) (xs : List ι) (h : ∀ e, ¬ made x e) :
    Phase made items (x :: xs) [] False :=
  ⟨[], x :: xs, rfl, .nil, by simpa using h, by simp⟩

theorem phase_cons {ι ε α : Type} {made : ι → ε → Prop} (r : α) {items : List (Item α)} {x : ι} {xs : List ι} {e : ε} {out : List ε} {ok : Prop}
    (h : made x e) (hp : Phase made items xs out ok) : Phase made (.row r :: items) (x :: xs) (e :: out) ok := by
  obtain ⟨done, rest, rfl, h1, h2, h3⟩ := hp
  refine ⟨x :: done, rest, rfl, .cons h h1, h2, ?_⟩
  rw [h3, broken_row]
  simp [rowsOf]

theorem nodes_any (z : Codec) (items : List (Item NodeRecord)) :
    ∀ (it : ElementIteratorF) (ts : List (Item TagRecord)), it.state = .nodes →
      ReadsI (createNode it.fields.nodes) it.nodes items →
      it.nodeTags.HoldsI (createNodeTag z it.fields.nodeTags) ts →
      ∃ ns ok, Phase (fun (x : NodeRecord × List TagRecord) n => ∃ uid user, it.owner x.1.changesetId = .ok (uid, user) ∧
          n = nodeOf x.1 x.2 uid user) items ((rowsOf items).zip (dealI nodeKey tagKey (rowsOf items) ts)) ns ok ∧
        (ok → ∃ a b, Yields (ElementIteratorF.next z) it (ns.map .node ++ [.sentinel])
          { it with state := .ways, nodes := a, nodeTags := b }) ∧
        (¬ ok → ∃ s, Yields (ElementIteratorF.next z) it (ns.map .node) s ∧ ElementIteratorF.next z s = .panic) := by
  induction items with
  | nil =>
    intro it ts hst hr ht
    cases hn : it.nodes with
    | cons l ls => rw [hn] at hr; cases hr
    | nil =>
      refine ⟨[], True, phase_nil rfl not_broken_nil, fun _ => ⟨[], it.nodeTags, .cons ?_ (.nil _)⟩, fun h => absurd trivial h⟩
      simp [ElementIteratorF.next, hst, ElementIteratorF.nextNode, nodesNextF, hn, tableNextF]
  | cons i items ih =>
    intro it ts hst hr ht
    cases hn : it.nodes with
    | nil => rw [hn] at hr; cases hr
    | cons l ls =>
      rw [hn] at hr
      cases hr with
      | failed hr =>
        refine ⟨[], True, phase_nil rfl (not_broken_stop _), fun _ => ⟨ls, it.nodeTags, .cons ?_ (.nil _)⟩, fun h => absurd trivial h⟩
        simp [ElementIteratorF.next, hst, ElementIteratorF.nextNode, nodesNextF, hn, tableNextF]
      | mark hl hr =>
        refine ⟨[], True, phase_nil rfl (not_broken_stop _), fun _ => ⟨ls, it.nodeTags, .cons ?_ (.nil _)⟩, fun h => absurd trivial h⟩
        simp [ElementIteratorF.next, hst, ElementIteratorF.nextNode, nodesNextF, hn, tableNextF, stopLine_true hl]
      | bad _ _ hl hr =>
        refine ⟨[], False, phase_bad _, fun h => h.elim, fun _ => ⟨it, .nil _, ?_⟩⟩
        simp [ElementIteratorF.next, hst, ElementIteratorF.nextNode, nodesNextF, hn, tableNextF, hl.1, hl.2]
      | @row l _ r _ _ hl hr =>
      have hat := attachF_items (fun t => decide (t.id = r.nodeId) && decide (t.version = r.version)) ht
      rw [nodeMine] at hat
      cases ho : takeOwnI (fun t => decide (tagKey t = nodeKey r)) ts with
      | none =>
        refine ⟨[], False, ?_, fun h => h.elim, fun _ => ⟨it, .nil _, ?_⟩⟩
        · simp only [rowsOf, dealI, ho, List.zip_nil_right]
          exact phase_short _ _
        · have := hat.1 ho
          rw [← nodeMine] at this
          simp [ElementIteratorF.next, hst, ElementIteratorF.nextNode, nodesNextF, hn, tableNextF, hl.1, hl.2, this]
      | some x =>
        obtain ⟨c', e1, e2⟩ := hat.2 x ho
        rw [← nodeMine] at e1
        simp only [rowsOf, dealI, ho, List.zip_cons_cons]
        rcases ownerF_cases (it := it) r.changesetId with ⟨uid, user, hw⟩ | hw
        · have step : ElementIteratorF.next z it = .ok (some (.node (nodeOf r x.1 uid user)), { it with nodes := ls, nodeTags := c' }) := by
            simp [ElementIteratorF.next, hst, ElementIteratorF.nextNode, nodesNextF, hn, tableNextF, hl.1, hl.2, e1]
            erw [hw]
            rfl
          obtain ⟨ns, ok, hp, h1, h2⟩ := ih { it with nodes := ls, nodeTags := c' } _ hst hr e2
          refine ⟨_ :: ns, ok, phase_cons r ⟨uid, user, hw, rfl⟩ hp, fun h => ?_, fun h => ?_⟩
          · obtain ⟨a, b, hy⟩ := h1 h
            exact ⟨a, b, .cons step hy⟩
          · obtain ⟨s, hy, hpan⟩ := h2 h
            exact ⟨s, .cons step hy, hpan⟩
        · refine ⟨[], False, phase_unowned _ _ _ ?_, fun h => h.elim, fun _ => ⟨it, .nil _, ?_⟩⟩
          · rintro e ⟨uid, user, hw', -⟩
            rw [hw] at hw'
            cases hw'
          · simp [ElementIteratorF.next, hst, ElementIteratorF.nextNode, nodesNextF, hn, tableNextF, hl.1, hl.2, e1]
            erw [hw]
            rfl

theorem objectsNextF_any {β : Type} (z : Codec) (fo ft : List Nat) (b : Text → Out β) (pk : β → Int64 × Int64)
    {l : Text} {ls : Results} {o : ObjectRecord} {tags : ChildF TagRecord} {parts : ChildF β}
    {ts : List (Item TagRecord)} {ps : List (Item β)}
    (hl : stopLine l = false ∧ createObject fo l = .ok o)
    (ht : tags.HoldsI (createObjectTag z ft) ts) (hp : parts.HoldsI b ps) :
    ((takeOwnI (fun t => decide (tagKey t = objectKey o)) ts = none ∨ takeOwnI (fun p => decide (pk p = objectKey o)) ps = none) ∧
      objectsNextF z fo ft b pk (some l :: ls) tags parts = .panic) ∨
    ∃ x y tags' parts', takeOwnI (fun t => decide (tagKey t = objectKey o)) ts = some x ∧
      takeOwnI (fun p => decide (pk p = objectKey o)) ps = some y ∧
      objectsNextF z fo ft b pk (some l :: ls) tags parts = .ok (some (o, x.1, y.1), ls, tags', parts') ∧
      ChildF.HoldsI (createObjectTag z ft) tags' x.2 ∧ ChildF.HoldsI b parts' y.2 := by
  have g1 := attachF_items (fun t => decide (t.id = o.id) && decide (t.version = o.version)) ht
  have g2 := attachF_items (fun p => decide ((pk p).1 = o.id) && decide ((pk p).2 = o.version)) hp
  have h1 := objectMine tagKey o
  have h2 := objectMine pk o
  simp only [tagKey] at h1
  rw [← h2]
  simp only [tagKey]
  rw [← h1]
  cases e1 : takeOwnI (fun t : TagRecord => decide (t.id = o.id) && decide (t.version = o.version)) ts with
  | none =>
    refine .inl ⟨.inl e1, ?_⟩
    simp [objectsNextF, tableNextF, hl.1, hl.2, g1.1 e1]
  | some x =>
    obtain ⟨c1, a1, a2⟩ := g1.2 x e1
    cases e2 : takeOwnI (fun p => decide ((pk p).1 = o.id) && decide ((pk p).2 = o.version)) ps with
    | none =>
      refine .inl ⟨.inr rfl, ?_⟩
      simp [objectsNextF, tableNextF, hl.1, hl.2, a1, g2.1 e2]
    | some y =>
      obtain ⟨c2, b1, b2⟩ := g2.2 y e2
      refine .inr ⟨x, y, c1, c2, e1, rfl, ?_, a2, b2⟩
      simp [objectsNextF, tableNextF, hl.1, hl.2, a1, b1]

theorem ways_any (z : Codec) (items : List (Item ObjectRecord)) :
    ∀ (it : ElementIteratorF) (ts : List (Item TagRecord)) (ps : List (Item WayNodeRecord)), it.state = .ways →
      ReadsI (createObject it.fields.ways) it.ways items →
      it.wayTags.HoldsI (createObjectTag z it.fields.wayTags) ts →
      it.wayNodes.HoldsI (createWayNode it.fields.wayNodes) ps →
      ∃ ws ok, Phase (fun (x : ObjectRecord × List TagRecord × List WayNodeRecord) n => ∃ uid user, it.owner x.1.changesetId = .ok (uid, user) ∧
          n = wayOf x.1 x.2.1 x.2.2 uid user) items
          ((rowsOf items).zip ((dealI objectKey tagKey (rowsOf items) ts).zip (dealI objectKey wayNodeKey (rowsOf items) ps))) ws ok ∧
        (ok → ∃ a b c, Yields (ElementIteratorF.next z) it (ws.map .way ++ [.sentinel])
          { it with state := .relations, ways := a, wayTags := b, wayNodes := c }) ∧
        (¬ ok → ∃ s, Yields (ElementIteratorF.next z) it (ws.map .way) s ∧ ElementIteratorF.next z s = .panic) := by
  induction items with
  | nil =>
    intro it ts ps hst hr ht hp
    cases hn : it.ways with
    | cons l ls => rw [hn] at hr; cases hr
    | nil =>
      refine ⟨[], True, phase_nil rfl not_broken_nil, fun _ => ⟨[], it.wayTags, it.wayNodes, .cons ?_ (.nil _)⟩, fun h => absurd trivial h⟩
      simp [ElementIteratorF.next, hst, ElementIteratorF.nextWay, objectsNextF, hn, tableNextF]
  | cons i items ih =>
    intro it ts ps hst hr ht hp
    cases hn : it.ways with
    | nil => rw [hn] at hr; cases hr
    | cons l ls =>
      rw [hn] at hr
      cases hr with
      | failed hr =>
        refine ⟨[], True, phase_nil rfl (not_broken_stop _), fun _ => ⟨ls, it.wayTags, it.wayNodes, .cons ?_ (.nil _)⟩, fun h => absurd trivial h⟩
        simp [ElementIteratorF.next, hst, ElementIteratorF.nextWay, objectsNextF, hn, tableNextF]
      | mark hl hr =>
        refine ⟨[], True, phase_nil rfl (not_broken_stop _), fun _ => ⟨ls, it.wayTags, it.wayNodes, .cons ?_ (.nil _)⟩, fun h => absurd trivial h⟩
        simp [ElementIteratorF.next, hst, ElementIteratorF.nextWay, objectsNextF, hn, tableNextF, stopLine_true hl]
      | bad _ _ hl hr =>
        refine ⟨[], False, phase_bad _, fun h => h.elim, fun _ => ⟨it, .nil _, ?_⟩⟩
        simp [ElementIteratorF.next, hst, ElementIteratorF.nextWay, objectsNextF, hn, tableNextF, hl.1, hl.2]
      | @row l _ r _ _ hl hr =>
      rcases objectsNextF_any (ls := ls) z it.fields.ways it.fields.wayTags _ wayNodeKey hl ht hp with ⟨hno, e1⟩ | ⟨x, y, c1, c2, ho, hq, e1, e2, e3⟩
      · refine ⟨[], False, ?_, fun h => h.elim, fun _ => ⟨it, .nil _, ?_⟩⟩
        · have : (dealI objectKey tagKey (rowsOf (.row r :: items)) ts).zip (dealI objectKey wayNodeKey (rowsOf (.row r :: items)) ps) = [] := by
            rcases hno with h | h
            · simp [rowsOf, dealI, h]
            · simp [rowsOf, dealI, h]
          rw [this, List.zip_nil_right]
          exact phase_short _ _
        · unfold wayNodeKey at e1
          simp [ElementIteratorF.next, hst, ElementIteratorF.nextWay, hn, e1]
      · simp only [rowsOf, dealI, ho, hq, List.zip_cons_cons]
        rcases ownerF_cases (it := it) r.changesetId with ⟨uid, user, hw⟩ | hw
        · have step : ElementIteratorF.next z it = .ok (some (.way (wayOf r x.1 y.1 uid user)),
              { it with ways := ls, wayTags := c1, wayNodes := c2 }) := by
            unfold wayNodeKey at e1
            simp [ElementIteratorF.next, hst, ElementIteratorF.nextWay, hn, e1]
            erw [hw]
            rfl
          obtain ⟨ws, ok, hp, h1, h2⟩ := ih { it with ways := ls, wayTags := c1, wayNodes := c2 } _ _ hst hr e2 e3
          refine ⟨_ :: ws, ok, phase_cons r ⟨uid, user, hw, rfl⟩ hp, fun h => ?_, fun h => ?_⟩
          · obtain ⟨a, b, c, hy⟩ := h1 h
            exact ⟨a, b, c, .cons step hy⟩
          · obtain ⟨s, hy, hpan⟩ := h2 h
            exact ⟨s, .cons step hy, hpan⟩
        · refine ⟨[], False, phase_unowned _ _ _ ?_, fun h => h.elim, fun _ => ⟨it, .nil _, ?_⟩⟩
          · rintro e ⟨uid, user, hw', -⟩
            rw [hw] at hw'
            cases hw'
          · unfold wayNodeKey at e1
            simp [ElementIteratorF.next, hst, ElementIteratorF.nextWay, hn, e1]
            erw [hw]
            rfl

theorem relations_any (z : Codec) (items : List (Item ObjectRecord)) :
    ∀ (it : ElementIteratorF) (ts : List (Item TagRecord)) (ps : List (Item MemberRecord)), it.state = .relations →
      ReadsI (createObject it.fields.relations) it.relations items →
      it.relationTags.HoldsI (createObjectTag z it.fields.relationTags) ts →
      it.relationMembers.HoldsI (createMember z it.fields.relationMembers) ps →
      ∃ ws ok, Phase (fun (x : ObjectRecord × List TagRecord × List MemberRecord) n => ∃ uid user, it.owner x.1.changesetId = .ok (uid, user) ∧
          n = relationOf x.1 x.2.1 x.2.2 uid user) items
          ((rowsOf items).zip ((dealI objectKey tagKey (rowsOf items) ts).zip (dealI objectKey memberKey (rowsOf items) ps))) ws ok ∧
        (ok → ∃ a b c, Yields (ElementIteratorF.next z) it (ws.map .relation ++ [.sentinel])
          { it with state := .finished, relations := a, relationTags := b, relationMembers := c }) ∧
        (¬ ok → ∃ s, Yields (ElementIteratorF.next z) it (ws.map .relation) s ∧ ElementIteratorF.next z s = .panic) := by
  induction items with
  | nil =>
    intro it ts ps hst hr ht hp
    cases hn : it.relations with
    | cons l ls => rw [hn] at hr; cases hr
    | nil =>
      refine ⟨[], True, phase_nil rfl not_broken_nil, fun _ => ⟨[], it.relationTags, it.relationMembers, .cons ?_ (.nil _)⟩, fun h => absurd trivial h⟩
      simp [ElementIteratorF.next, hst, ElementIteratorF.nextRelation, objectsNextF, hn, tableNextF]
  | cons i items ih =>
    intro it ts ps hst hr ht hp
    cases hn : it.relations with
    | nil => rw [hn] at hr; cases hr
    | cons l ls =>
      rw [hn] at hr
      cases hr with
      | failed hr =>
        refine ⟨[], True, phase_nil rfl (not_broken_stop _), fun _ => ⟨ls, it.relationTags, it.relationMembers, .cons ?_ (.nil _)⟩, fun h => absurd trivial h⟩
        simp [ElementIteratorF.next, hst, ElementIteratorF.nextRelation, objectsNextF, hn, tableNextF]
      | mark hl hr =>
        refine ⟨[], True, phase_nil rfl (not_broken_stop _), fun _ => ⟨ls, it.relationTags, it.relationMembers, .cons ?_ (.nil _)⟩, fun h => absurd trivial h⟩
        simp [ElementIteratorF.next, hst, ElementIteratorF.nextRelation, objectsNextF, hn, tableNextF, stopLine_true hl]
      | bad _ _ hl hr =>
        refine ⟨[], False, phase_bad _, fun h => h.elim, fun _ => ⟨it, .nil _, ?_⟩⟩
        simp [ElementIteratorF.next, hst, ElementIteratorF.nextRelation, objectsNextF, hn, tableNextF, hl.1, hl.2]
      | @row l _ r _ _ hl hr =>
      rcases objectsNextF_any (ls := ls) z it.fields.relations it.fields.relationTags _ memberKey hl ht hp with ⟨hno, e1⟩ | ⟨x, y, c1, c2, ho, hq, e1, e2, e3⟩
      · refine ⟨[], False, ?_, fun h => h.elim, fun _ => ⟨it, .nil _, ?_⟩⟩
        · have : (dealI objectKey tagKey (rowsOf (.row r :: items)) ts).zip (dealI objectKey memberKey (rowsOf (.row r :: items)) ps) = [] := by
            rcases hno with h | h
            · simp [rowsOf, dealI, h]
            · simp [rowsOf, dealI, h]
          rw [this, List.zip_nil_right]
          exact phase_short _ _
        · unfold memberKey at e1
          simp [ElementIteratorF.next, hst, ElementIteratorF.nextRelation, hn, e1]
      · simp only [rowsOf, dealI, ho, hq, List.zip_cons_cons]
        rcases ownerF_cases (it := it) r.changesetId with ⟨uid, user, hw⟩ | hw
        · have step : ElementIteratorF.next z it = .ok (some (.relation (relationOf r x.1 y.1 uid user)),
              { it with relations := ls, relationTags := c1, relationMembers := c2 }) := by
            unfold memberKey at e1
            simp [ElementIteratorF.next, hst, ElementIteratorF.nextRelation, hn, e1]
            erw [hw]
            rfl
          obtain ⟨ws, ok, hp, h1, h2⟩ := ih { it with relations := ls, relationTags := c1, relationMembers := c2 } _ _ hst hr e2 e3
          refine ⟨_ :: ws, ok, phase_cons r ⟨uid, user, hw, rfl⟩ hp, fun h => ?_, fun h => ?_⟩
          · obtain ⟨a, b, c, hy⟩ := h1 h
            exact ⟨a, b, c, .cons step hy⟩
          · obtain ⟨s, hy, hpan⟩ := h2 h
            exact ⟨s, .cons step hy, hpan⟩
        · refine ⟨[], False, phase_unowned _ _ _ ?_, fun h => h.elim, fun _ => ⟨it, .nil _, ?_⟩⟩
          · rintro e ⟨uid, user, hw', -⟩
            rw [hw] at hw'
            cases hw'
          · unfold memberKey at e1
            simp [ElementIteratorF.next, hst, ElementIteratorF.nextRelation, hn, e1]
            erw [hw]
            rfl

end OsmIo.Apidb
