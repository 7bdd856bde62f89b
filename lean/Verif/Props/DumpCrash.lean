import Verif.Props.BufWriter
import Verif.Props.AnyDump
import Verif.Props.ApidbRoundTrip
import Verif.Props.ApidbSortable
import Verif.Spec.DumpCrash
/-!
# A dump whose writing was interrupted (C94)
-/
namespace OsmIo
open Spec
open OsmIo.Text OsmIo.Sql OsmIo.Apidb

theorem owner_empty {it : ElementIteratorF} (h : it.changesetIndex = []) (k : Int64) : it.owner k = .panic := by
  simp [ElementIteratorF.owner, h, lookup, Out.unwrap]

/-- Without changesets only Sentinels come, and the index stays empty. -/
theorem next_unowned {z : Codec} {it it' : ElementIteratorF} {e : Option Element} (h : it.changesetIndex = [])
    (hn : ElementIteratorF.next z it = .ok (e, it')) : (e = some .sentinel ∨ e = none) ∧ it'.changesetIndex = [] := by
  have node : ∀ it₁ : ElementIteratorF, it₁.changesetIndex = [] → ElementIteratorF.nextNode z it₁ = .ok (e, it') →
      (e = some .sentinel ∨ e = none) ∧ it'.changesetIndex = [] := by
    intro it₁ h₁ hn
    unfold ElementIteratorF.nextNode at hn
    obtain ⟨⟨r, a, b⟩, -, hn⟩ := Out.bind_eq_ok.1 hn
    cases r with
    | none => cases hn; exact ⟨.inl rfl, h₁⟩
    | some x =>
      obtain ⟨n, ts⟩ := x
      simp only [owner_empty (it := { it₁ with nodes := a, nodeTags := b }) h₁] at hn
      cases hn
  unfold ElementIteratorF.next at hn
  cases hs : it.state <;> simp only [hs] at hn
  · exact node { it with state := .nodes } h hn
  · exact node it h hn
  · unfold ElementIteratorF.nextWay at hn
    obtain ⟨⟨r, a, b, c⟩, -, hn⟩ := Out.bind_eq_ok.1 hn
    cases r with
    | none => cases hn; exact ⟨.inl rfl, h⟩
    | some x =>
      obtain ⟨n, ts⟩ := x
      simp only [owner_empty (it := { it with ways := a, wayTags := b, wayNodes := c }) h] at hn
      cases hn
  · unfold ElementIteratorF.nextRelation at hn
    obtain ⟨⟨r, a, b, c⟩, -, hn⟩ := Out.bind_eq_ok.1 hn
    cases r with
    | none => cases hn; exact ⟨.inl rfl, h⟩
    | some x =>
      obtain ⟨n, ts⟩ := x
      simp only [owner_empty (it := { it with relations := a, relationTags := b, relationMembers := c }) h] at hn
      cases hn
  · cases hn; exact ⟨.inr rfl, h⟩

theorem yields_unowned {z : Codec} {it s : ElementIteratorF} {es : List Element} (h : it.changesetIndex = [])
    (hy : Yields (ElementIteratorF.next z) it es s) : ∀ e ∈ es, e = .sentinel := by
  induction hy with
  | nil => simp
  | cons hn _ ih =>
    obtain ⟨h1, h2⟩ := next_unowned h hn
    rcases h1 with h1 | h1
    · cases h1
      intro e he
      rcases List.mem_cons.1 he with rfl | he
      · rfl
      · exact ih h2 e he
    · cases h1

/-- Before `close` nothing is written to the tables of users and changesets. -/
theorem owners_unwritten {z : Codec} {es : List Element} {w : Apidb.Writer} (h : Apidb.Writer.new.writeAll z es = .ok w)
    (t : Table) (ht : t = .users ∨ t = .changesets) : w.files t = [] := by
  obtain ⟨f1, -⟩ := writeAll_files h
  have := (f1 t (fun e _ => by rcases ht with rfl | rfl <;> cases e <;> rfl)).1
  rw [this]
  have e : es.flatMap (histRows z t) = [] := by
    rw [List.flatMap_eq_nil_iff]
    intro e _
    rcases ht with rfl | rfl <;> cases e <;> rfl
  rw [e]
  rfl

theorem tableNextF_none {α : Type} {build : Text → Out α} {ls rest : Results} (h : tableNextF build ls = .ok (none, rest)) : NoRow ls := by
  rintro l r rfl
  unfold tableNextF at h
  by_cases hs : stopLine l = true
  · by_contra hc
    rw [not_or] at hc
    rw [stopLine_false.2 ⟨hc.1, hc.2⟩] at hs
    cases hs
  · simp only [hs] at h
    obtain ⟨x, -, h⟩ := Out.bind_eq_ok.1 h
    cases h

theorem tableNextF_noRow {α : Type} {build : Text → Out α} {ls : Results} (h : NoRow ls) : tableNextF build ls = .ok (none, ls.tail) := by
  match ls with
  | [] => rfl
  | none :: _ => rfl
  | some l :: r => simp [tableNextF, stopLine_true (h l r rfl)]

theorem nextNode_unowned {z : Codec} {it : ElementIteratorF} (h : it.changesetIndex = []) :
    (NoRow it.nodes → it.nextNode z = .ok (some .sentinel, { it with nodes := it.nodes.tail, state := .ways })) ∧
    (¬ NoRow it.nodes → it.nextNode z = .panic ∨ it.nextNode z = .err) := by
  constructor
  · intro hr
    simp [ElementIteratorF.nextNode, nodesNextF, tableNextF_noRow hr]
  · intro hr
    cases e : it.nextNode z with
    | err => exact .inr rfl
    | panic => exact .inl rfl
    | ok x =>
      exfalso
      unfold ElementIteratorF.nextNode at e
      obtain ⟨⟨r, a, b⟩, e1, e⟩ := Out.bind_eq_ok.1 e
      cases r with
      | none =>
        unfold nodesNextF at e1
        obtain ⟨⟨r, a'⟩, e2, e1⟩ := Out.bind_eq_ok.1 e1
        cases r with
        | none => exact hr (tableNextF_none e2)
        | some n =>
          simp only at e1
          obtain ⟨_, -, e1⟩ := Out.bind_eq_ok.1 e1
          cases e1
      | some y =>
        obtain ⟨n, ts⟩ := y
        simp only [owner_empty (it := { it with nodes := a, nodeTags := b }) h] at e
        cases e

theorem objectsNextF_none {β : Type} {z : Codec} {fo ft : List Nat} {b : Text → Out β} {pk : β → Int64 × Int64} {os : Results} {ts : ChildF TagRecord} {ps : ChildF β}
    {x} (h : objectsNextF z fo ft b pk os ts ps = .ok (none, x)) : NoRow os := by
  unfold objectsNextF at h
  obtain ⟨⟨r, a'⟩, e2, e1⟩ := Out.bind_eq_ok.1 h
  cases r with
  | none => exact tableNextF_none e2
  | some n =>
    simp only at e1
    obtain ⟨_, -, e1⟩ := Out.bind_eq_ok.1 e1
    obtain ⟨_, -, e1⟩ := Out.bind_eq_ok.1 e1
    cases e1

theorem nextWay_unowned {z : Codec} {it : ElementIteratorF} (h : it.changesetIndex = []) :
    (NoRow it.ways → it.nextWay z = .ok (some .sentinel, { it with ways := it.ways.tail, state := .relations })) ∧
    (¬ NoRow it.ways → it.nextWay z = .panic ∨ it.nextWay z = .err) := by
  constructor
  · intro hr
    simp [ElementIteratorF.nextWay, objectsNextF, tableNextF_noRow hr]
  · intro hr
    cases e : it.nextWay z with
    | err => exact .inr rfl
    | panic => exact .inl rfl
    | ok x =>
      exfalso
      unfold ElementIteratorF.nextWay at e
      obtain ⟨⟨r, a, b, c⟩, e1, e⟩ := Out.bind_eq_ok.1 e
      cases r with
      | none => exact hr (objectsNextF_none e1)
      | some y =>
        obtain ⟨n, ts⟩ := y
        simp only [owner_empty (it := { it with ways := a, wayTags := b, wayNodes := c }) h] at e
        cases e

theorem nextRelation_unowned {z : Codec} {it : ElementIteratorF} (h : it.changesetIndex = []) :
    (NoRow it.relations → it.nextRelation z = .ok (some .sentinel, { it with relations := it.relations.tail, state := .finished })) ∧
    (¬ NoRow it.relations → it.nextRelation z = .panic ∨ it.nextRelation z = .err) := by
  constructor
  · intro hr
    simp [ElementIteratorF.nextRelation, objectsNextF, tableNextF_noRow hr]
  · intro hr
    cases e : it.nextRelation z with
    | err => exact .inr rfl
    | panic => exact .inl rfl
    | ok x =>
      exfalso
      unfold ElementIteratorF.nextRelation at e
      obtain ⟨⟨r, a, b, c⟩, e1, e⟩ := Out.bind_eq_ok.1 e
      cases r with
      | none => exact hr (objectsNextF_none e1)
      | some y =>
        obtain ⟨n, ts⟩ := y
        simp only [owner_empty (it := { it with relations := a, relationTags := b, relationMembers := c }) h] at e
        cases e

theorem sentinels_writeAll {z : Zlib} (w : Writer) {es : List Element} (h : ∀ e ∈ es, e = .sentinel) : w.writeAll z es = .ok w := by
  rw [writeAll_realOnes]
  have : realOnes es = [] := by
    unfold realOnes
    rw [List.filter_eq_nil_iff]
    intro e he
    rw [h e he]
    simp [Element.isSentinel]
  rw [this]
  rfl

/-- What `apidb-to-pbf` does when no changeset is known. -/
theorem program_unowned {zl : Zlib} {z : Codec} {tables : Tables} {got : Table → Results} {info : FileInfo} {c : CompressionType} {r : Out Bytes}
    {it : ElementIteratorF} (hnew : ElementIteratorF.new tables got = .ok it) (h : it.changesetIndex = []) (hst : it.state = .start)
    (h1 : it.nodes = got .nodes) (h2 : it.ways = got .ways) (h3 : it.relations = got .relations) :
    ApidbToPbfF zl z tables got info c r ↔
      ((NoRow (got .nodes) ∧ NoRow (got .ways) ∧ NoRow (got .relations)) ∧ r = .ok (((Writer.fromFileInfo info c).writeHeader zl).close zl).file) ∨
      (¬ (NoRow (got .nodes) ∧ NoRow (got .ways) ∧ NoRow (got .relations)) ∧ r = .panic) := by
  unfold ApidbToPbfF
  rw [hnew]
  simp only
  have fin : ∀ l s, Yields (ElementIteratorF.next z) it l s → (ElementIteratorF.next z s = .panic ∨ ElementIteratorF.next z s = .err) →
      ¬ (NoRow (got .nodes) ∧ NoRow (got .ways) ∧ NoRow (got .relations)) →
      (((∃ es it', Iterates (ElementIteratorF.next z) it es it' ∧
        r = (do
          let w ← ((Writer.fromFileInfo info c).writeHeader zl).writeAll zl es
          .ok (w.close zl).file)) ∨
      (∃ es s, Yields (ElementIteratorF.next z) it es s ∧ (ElementIteratorF.next z s = .panic ∨ ElementIteratorF.next z s = .err) ∧ r = .panic)) ↔
      ((NoRow (got .nodes) ∧ NoRow (got .ways) ∧ NoRow (got .relations)) ∧ r = .ok (((Writer.fromFileInfo info c).writeHeader zl).close zl).file) ∨
      (¬ (NoRow (got .nodes) ∧ NoRow (got .ways) ∧ NoRow (got .relations)) ∧ r = .panic)) := by
    intro l s hy hb hr
    constructor
    · rintro (⟨es, it', ⟨s', hy', hn'⟩, -⟩ | ⟨_, _, -, -, rfl⟩)
      · exact absurd hb (yields_stop hy' hn' hy)
      · exact .inr ⟨hr, rfl⟩
    · rintro (⟨h, -⟩ | ⟨-, rfl⟩)
      · exact absurd h hr
      · exact .inr ⟨l, s, hy, hb, rfl⟩
  have s1 : ElementIteratorF.next z it = { it with state := .nodes : ElementIteratorF }.nextNode z := by unfold ElementIteratorF.next; rw [hst]
  have n1 := nextNode_unowned (z := z) (it := { it with state := .nodes }) h
  rw [← s1] at n1
  simp only [h1] at n1
  by_cases r1 : NoRow (got .nodes)
  · have m1 := n1.1 r1
    let it1 : ElementIteratorF := { it with state := .ways, nodes := (got .nodes).tail }
    have m1 : ElementIteratorF.next z it = .ok (some .sentinel, it1) := m1
    have n2 := nextWay_unowned (z := z) (it := it1) h
    have s2 : ElementIteratorF.next z it1 = it1.nextWay z := rfl
    rw [← s2] at n2
    have h2' : it1.ways = got .ways := h2
    rw [h2'] at n2
    by_cases r2 : NoRow (got .ways)
    · let it2 : ElementIteratorF := { it1 with state := .relations, ways := (got .ways).tail }
      have m2 : ElementIteratorF.next z it1 = .ok (some .sentinel, it2) := n2.1 r2
      have n3 := nextRelation_unowned (z := z) (it := it2) h
      have s3 : ElementIteratorF.next z it2 = it2.nextRelation z := rfl
      rw [← s3] at n3
      have h3' : it2.relations = got .relations := h3
      rw [h3'] at n3
      by_cases r3 : NoRow (got .relations)
      · let it3 : ElementIteratorF := { it2 with state := .finished, relations := (got .relations).tail }
        have m3 : ElementIteratorF.next z it2 = .ok (some .sentinel, it3) := n3.1 r3
        have m4 : ElementIteratorF.next z it3 = .ok (none, it3) := rfl
        have hi : Iterates (ElementIteratorF.next z) it [.sentinel, .sentinel, .sentinel] it3 := ⟨it3, .cons m1 (.cons m2 (.cons m3 (.nil _))), m4⟩
        constructor
        · rintro (⟨es, it', hit, rfl⟩ | ⟨es, s, hy, hbad, -⟩)
          · obtain ⟨rfl, -⟩ := Iterates.det hit hi
            refine .inl ⟨⟨r1, r2, r3⟩, ?_⟩
            rw [sentinels_writeAll _ (by simp)]
            rfl
          · exfalso
            obtain ⟨s', hy', hn'⟩ := hi
            exact yields_stop hy' hn' hy hbad
        · rintro (⟨-, rfl⟩ | ⟨hc, -⟩)
          · refine .inl ⟨_, it3, hi, ?_⟩
            rw [sentinels_writeAll _ (by simp)]
            rfl
          · exact absurd ⟨r1, r2, r3⟩ hc
      · exact fin _ it2 (.cons m1 (.cons m2 (.nil _))) (n3.2 r3) (fun h => r3 h.2.2)
    · exact fin _ it1 (.cons m1 (.nil _)) (n2.2 r2) (fun h => r2 h.2.1)
  · exact fin _ it (.nil _) (n1.2 r1) (fun h => r1 h.1)

/-- C94. A writer of a dump that is stopped before `close`, whatever was written, at any operation and also after an I/O error, leaves a dump from
which no element can be read: reading it gives nothing but Sentinels. `apidb-to-pbf` panics on it; only if not even the tables of nodes, ways and
relations begin with a row, it makes a file, and there is nothing in it but the header. `got` is what comes of reading the files; all that is
assumed is that an empty file gives no lines. -/
theorem C94_unclosed (z : Codec) (es : List Element) (disk : Table → Bytes) (hd : StoppedUnclosed z es disk)
    (columns : Table → List Text) (tables : Tables) (hn : Names columns tables) (got : Table → List (Option Text)) (hg : ∀ t, disk t = [] → got t = []) :
    (disk .users = [] ∧ disk .changesets = []) ∧
    (∃ it, ElementIteratorF.new tables got = .ok it ∧
      (∀ es' s, Yields (ElementIteratorF.next z) it es' s → ∀ e ∈ es', e = .sentinel)) ∧
    ∀ zl info c r, ApidbToPbfF zl z tables got info c r ↔
      ((NoRow (got .nodes) ∧ NoRow (got .ways) ∧ NoRow (got .relations)) ∧ r = .ok (((Writer.fromFileInfo info c).writeHeader zl).close zl).file) ∨
      (¬ (NoRow (got .nodes) ∧ NoRow (got .ways) ∧ NoRow (got .relations)) ∧ r = .panic) := by
  have empty : ∀ t, t = .users ∨ t = .changesets → disk t = [] := by
    intro t ht
    obtain ⟨w, hw, rows, ops, faults, hr, ⟨more, rfl⟩, rfl⟩ := hd
    have hwt : writtenTo t ops = [] := by
      have := hr t
      rw [owners_unwritten hw t ht, writtenTo_append] at this
      have e : Wire.strBytes (String.ofList []) = [] := by decide
      rw [e, List.append_eq_nil_iff] at this
      exact this.1
    rcases tableOps_inv ops (inv_fresh faults) with ⟨-, e2⟩ | ⟨-, e2⟩
    · have := e2.content t
      rw [hwt] at this
      simp only [List.append_nil, List.append_eq_nil_iff] at this
      exact this.1
    · have := e2 t
      rw [hwt] at this
      simp only [List.append_nil, List.prefix_nil, List.append_eq_nil_iff] at this
      exact this.1
  have eu := empty .users (.inl rfl)
  have ec := empty .changesets (.inr rfl)
  have p : ∀ t ∈ [Table.nodes, .nodeTags, .ways, .wayNodes, .wayTags, .relations, .relationMembers, .relationTags, .changesets, .users],
      ∃ x, tables t = some x := fun t ht => Option.isSome_iff_exists.1 (hn.present t ht)
  obtain ⟨⟨_, _⟩, p1⟩ := p .users (by simp)
  obtain ⟨⟨_, _⟩, p2⟩ := p .changesets (by simp)
  obtain ⟨⟨_, _⟩, p3⟩ := p .nodes (by simp)
  obtain ⟨⟨_, _⟩, p4⟩ := p .nodeTags (by simp)
  obtain ⟨⟨_, _⟩, p5⟩ := p .ways (by simp)
  obtain ⟨⟨_, _⟩, p6⟩ := p .wayNodes (by simp)
  obtain ⟨⟨_, _⟩, p7⟩ := p .wayTags (by simp)
  obtain ⟨⟨_, _⟩, p8⟩ := p .relations (by simp)
  obtain ⟨⟨_, _⟩, p9⟩ := p .relationMembers (by simp)
  obtain ⟨⟨_, _⟩, p10⟩ := p .relationTags (by simp)
  have hnew : ∃ it, ElementIteratorF.new tables got = .ok it ∧ it.changesetIndex = [] ∧ it.state = .start ∧ it.nodes = got .nodes ∧ it.ways = got .ways ∧
      it.relations = got .relations := by
    cases e : ElementIteratorF.new tables got with
    | ok it =>
      unfold ElementIteratorF.new at e
      rw [p1, p2, p3, p4, p5, p6, p7, p8, p9, p10, hg _ eu, hg _ ec] at e
      cases e
      exact ⟨_, rfl, rfl, rfl, rfl, rfl, rfl⟩
    | err =>
      unfold ElementIteratorF.new at e
      rw [p1, p2, p3, p4, p5, p6, p7, p8, p9, p10, hg _ eu, hg _ ec] at e
      cases e
    | panic =>
      unfold ElementIteratorF.new at e
      rw [p1, p2, p3, p4, p5, p6, p7, p8, p9, p10, hg _ eu, hg _ ec] at e
      cases e
  obtain ⟨it, h1, h2, h3, h4, h5, h6⟩ := hnew
  exact ⟨⟨eu, ec⟩, ⟨it, h1, fun _ _ hy => yields_unowned h2 hy⟩, fun zl info c r => program_unowned h1 h2 h3 h4 h5 h6⟩

/-! ## Stopped within `close` -/

/-- The elements that are not ways. -/
def withoutWays (es : List Element) : List Element := es.filter fun e => match e with | .way _ => false | _ => true

/-- The iterator when the tables of ways are empty. -/
def Apidb.ElementIterator.noWays (it : ElementIterator) : ElementIterator :=
  { it with ways := [], wayTags := { lines := [] }, wayNodes := { lines := [] } }

theorem owner_noWays (it : ElementIterator) (k : Int64) : it.noWays.owner k = it.owner k := rfl

theorem nextNode_noWays {z : Codec} {it it' : ElementIterator} {e : Option Element} (h : it.nextNode z = .ok (e, it')) :
    it.noWays.nextNode z = .ok (e, it'.noWays) ∧ (∀ w, e ≠ some (.way w)) := by
  unfold ElementIterator.nextNode at h ⊢
  obtain ⟨⟨r, a, b⟩, e1, h⟩ := Out.bind_eq_ok.1 h
  have e1' : nodesNext z it.noWays.fields.nodes it.noWays.fields.nodeTags it.noWays.nodes it.noWays.nodeTags = .ok (r, a, b) := e1
  rw [e1']
  cases r with
  | none => cases h; exact ⟨rfl, by simp⟩
  | some x =>
    obtain ⟨n, ts⟩ := x
    obtain ⟨⟨uid, user⟩, e2, h⟩ := Out.bind_eq_ok.1 h
    cases h
    constructor
    · exact Out.bind_eq_ok.2 ⟨_, rfl, Out.bind_eq_ok.2 ⟨(uid, user), e2, rfl⟩⟩
    · simp

theorem nextRelation_noWays {z : Codec} {it it' : ElementIterator} {e : Option Element} (h : it.nextRelation z = .ok (e, it')) :
    it.noWays.nextRelation z = .ok (e, it'.noWays) ∧ (∀ w, e ≠ some (.way w)) := by
  unfold ElementIterator.nextRelation at h ⊢
  obtain ⟨⟨r, a, b, c⟩, e1, h⟩ := Out.bind_eq_ok.1 h
  have e1' : objectsNext z it.noWays.fields.relations it.noWays.fields.relationTags (createMember z it.noWays.fields.relationMembers)
    (fun p => (p.relationId, p.version)) it.noWays.relations it.noWays.relationTags it.noWays.relationMembers = .ok (r, a, b, c) := e1
  rw [e1']
  cases r with
  | none => cases h; exact ⟨rfl, by simp⟩
  | some x =>
    obtain ⟨n, ts, ms⟩ := x
    obtain ⟨⟨uid, user⟩, e2, h⟩ := Out.bind_eq_ok.1 h
    cases h
    constructor
    · exact Out.bind_eq_ok.2 ⟨_, rfl, Out.bind_eq_ok.2 ⟨(uid, user), e2, rfl⟩⟩
    · simp

/-- A step of the iterator becomes the same step, or no step if it gave a way. -/
theorem next_noWays {z : Codec} {it it' : ElementIterator} {e : Option Element} (h : ElementIterator.next z it = .ok (e, it')) :
    (ElementIterator.next z it.noWays = .ok (e, it'.noWays) ∧ ∀ w, e ≠ some (.way w)) ∨ ((∃ w, e = some (.way w)) ∧ it'.noWays = it.noWays) := by
  unfold ElementIterator.next at h
  cases hs : it.state <;> simp only [hs] at h
  · left
    have := nextNode_noWays h
    have e : ElementIterator.next z it.noWays = ({ it with state := .nodes } : ElementIterator).noWays.nextNode z := by
      unfold ElementIterator.next
      have : it.noWays.state = .start := hs
      rw [this]; rfl
    rw [e]; exact this
  · left
    have := nextNode_noWays h
    have e : ElementIterator.next z it.noWays = it.noWays.nextNode z := by
      unfold ElementIterator.next
      have : it.noWays.state = .nodes := hs
      rw [this]
    rw [e]; exact this
  · unfold ElementIterator.nextWay at h
    obtain ⟨⟨r, a, b, c⟩, e1, h⟩ := Out.bind_eq_ok.1 h
    cases r with
    | none =>
      cases h
      left
      refine ⟨?_, by simp⟩
      unfold ElementIterator.next
      have : it.noWays.state = .ways := hs
      rw [this]
      rfl
    | some x =>
      obtain ⟨n, ts, ms⟩ := x
      obtain ⟨⟨uid, user⟩, e2, h⟩ := Out.bind_eq_ok.1 h
      cases h
      exact .inr ⟨⟨_, rfl⟩, rfl⟩
  · left
    have := nextRelation_noWays h
    have e : ElementIterator.next z it.noWays = it.noWays.nextRelation z := by
      unfold ElementIterator.next
      have : it.noWays.state = .relations := hs
      rw [this]
    rw [e]; exact this
  · cases h
    left
    refine ⟨?_, by simp⟩
    unfold ElementIterator.next
    have : it.noWays.state = .finished := hs
    rw [this]

theorem yields_noWays {z : Codec} {it s : ElementIterator} {es : List Element} (h : Yields (ElementIterator.next z) it es s) :
    Yields (ElementIterator.next z) it.noWays (withoutWays es) s.noWays := by
  induction h with
  | nil => exact .nil _
  | @cons s s' s'' a as hn _ ih =>
    rcases next_noWays hn with ⟨h1, h2⟩ | ⟨⟨w, h1⟩, h2⟩
    · have : withoutWays (a :: as) = a :: withoutWays as := by
        cases a <;> simp [withoutWays] at h2 ⊢
      rw [this]
      exact .cons h1 ih
    · cases h1
      rw [h2] at ih
      simpa [withoutWays] using ih

theorem iterates_noWays {z : Codec} {it s : ElementIterator} {es : List Element} (h : Iterates (ElementIterator.next z) it es s) :
    Iterates (ElementIterator.next z) it.noWays (withoutWays es) s.noWays := by
  obtain ⟨s₁, h1, h2⟩ := h
  refine ⟨s₁.noWays, yields_noWays h1, ?_⟩
  rcases next_noWays h2 with ⟨h3, -⟩ | ⟨⟨w, h3⟩, -⟩
  · exact h3
  · cases h3

theorem lines_nil : lines ([] : Text) = [] := rfl

theorem new_noWays {tables : Tables} {sorted : Table → Text} {it : ElementIterator} (h : ElementIterator.new tables sorted = .ok it) :
    ElementIterator.new tables (withoutWayTables sorted) = .ok it.noWays := by
  unfold ElementIterator.new at h ⊢
  obtain ⟨⟨_, _⟩, h1, h⟩ := Out.bind_eq_ok.1 h
  obtain ⟨_, h2, h⟩ := Out.bind_eq_ok.1 h
  obtain ⟨⟨_, _⟩, h3, h⟩ := Out.bind_eq_ok.1 h
  obtain ⟨_, h4, h⟩ := Out.bind_eq_ok.1 h
  obtain ⟨⟨_, _⟩, h5, h⟩ := Out.bind_eq_ok.1 h
  obtain ⟨⟨_, _⟩, h6, h⟩ := Out.bind_eq_ok.1 h
  obtain ⟨⟨_, _⟩, h7, h⟩ := Out.bind_eq_ok.1 h
  obtain ⟨⟨_, _⟩, h8, h⟩ := Out.bind_eq_ok.1 h
  obtain ⟨⟨_, _⟩, h9, h⟩ := Out.bind_eq_ok.1 h
  obtain ⟨⟨_, _⟩, h10, h⟩ := Out.bind_eq_ok.1 h
  obtain ⟨⟨_, _⟩, h11, h⟩ := Out.bind_eq_ok.1 h
  obtain ⟨⟨_, _⟩, h12, h⟩ := Out.bind_eq_ok.1 h
  cases h
  exact Out.bind_eq_ok.2 ⟨_, h1, Out.bind_eq_ok.2 ⟨_, h2, Out.bind_eq_ok.2 ⟨_, h3, Out.bind_eq_ok.2 ⟨_, h4, Out.bind_eq_ok.2 ⟨_, h5, Out.bind_eq_ok.2 ⟨_, h6,
    Out.bind_eq_ok.2 ⟨_, h7, Out.bind_eq_ok.2 ⟨_, h8, Out.bind_eq_ok.2 ⟨_, h9, Out.bind_eq_ok.2 ⟨_, h10, Out.bind_eq_ok.2 ⟨_, h11, Out.bind_eq_ok.2 ⟨_, h12, rfl⟩⟩⟩⟩⟩⟩⟩⟩⟩⟩⟩⟩

/-- While less than its capacity has been written to a file and it is not flushed, all of it is in the buffer. -/
theorem ops_buffered (t : Table) (ops : List TableOp) (hn : TableOp.flush t ∉ ops) : ∀ {fs fs' : Table → BufFile},
    tableOps fs ops = (true, fs') → (fs t).buf.length + (writtenTo t ops).length < bufCapacity → (fs' t).disk.file = (fs t).disk.file := by
  induction ops with
  | nil => intro fs fs' h _; simp only [tableOps, Prod.mk.injEq, true_and] at h; rw [h]
  | cons op ops ih =>
    intro fs fs' h hb
    simp only [tableOps] at h
    cases e : (tableOp fs op).1 with
    | false => rw [e] at h; simp at h
    | true =>
      rw [e] at h
      simp only [if_true] at h
      have hop : ((tableOp fs op).2 t).disk.file = (fs t).disk.file ∧ ((tableOp fs op).2 t).buf.length + (writtenTo t ops).length < bufCapacity := by
        cases op with
        | write t' b =>
          simp only [tableOp]
          by_cases ht : t = t'
          · subst ht
            simp only [writtenTo, if_true, List.length_append] at hb
            have hlt : (fs t).buf.length + b.length < bufCapacity := by omega
            simp only [if_true, BufFile.writeAll, if_pos hlt, List.length_append]
            exact ⟨trivial, by omega⟩
          · rw [if_neg ht]
            simp only [writtenTo, if_neg (Ne.symm ht), List.nil_append] at hb
            exact ⟨rfl, hb⟩
        | flush t' =>
          simp only [tableOp]
          have ht : t ≠ t' := fun e => hn (by rw [e]; simp)
          rw [if_neg ht]
          exact ⟨rfl, hb⟩
      rw [ih (fun hm => hn (by simp [hm])) h hop.2, hop.1]

theorem flushBuf_ok {f : BufFile} (h : ∀ k, f.disk.faults k = none) : (f.flushBuf).1 = true ∧ ∀ k, (f.flushBuf).2.disk.faults k = none := by
  unfold BufFile.flushBuf
  split
  · exact ⟨rfl, h⟩
  · rw [h]; exact ⟨rfl, h⟩

theorem bufWriteAll_ok {f : BufFile} (b : Bytes) (h : ∀ k, f.disk.faults k = none) : (f.writeAll b).1 = true ∧ ∀ k, (f.writeAll b).2.disk.faults k = none := by
  unfold BufFile.writeAll
  split
  · exact ⟨rfl, h⟩
  · have hf := flushBuf_ok h
    have : ∀ g : Bool × BufFile, g.1 = true → (∀ k, g.2.disk.faults k = none) →
        ((if g.1 then (if bufCapacity ≤ b.length then ((g.2.disk.writeAll b).1, ({ g.2 with disk := (g.2.disk.writeAll b).2 } : BufFile)) else (true, { g.2 with buf := g.2.buf ++ b }))
          else (false, g.2)).1 = true ∧
        ∀ k, (if g.1 then (if bufCapacity ≤ b.length then ((g.2.disk.writeAll b).1, ({ g.2 with disk := (g.2.disk.writeAll b).2 } : BufFile)) else (true, { g.2 with buf := g.2.buf ++ b }))
          else (false, g.2)).2.disk.faults k = none) := by
      intro g g1 g2
      rw [if_pos g1]
      split
      · unfold Disk.writeAll
        rw [g2]
        exact ⟨rfl, g2⟩
      · exact ⟨rfl, g2⟩
    exact this (if bufCapacity < f.buf.length + b.length then f.flushBuf else (true, f)) (by split; exacts [hf.1, rfl]) (by split; exacts [hf.2, h])

/-- On a device without faults nothing fails. -/
theorem ops_succeed (ops : List TableOp) : ∀ {fs : Table → BufFile}, (∀ t k, (fs t).disk.faults k = none) → (tableOps fs ops).1 = true := by
  induction ops with
  | nil => intro fs _; rfl
  | cons op ops ih =>
    intro fs h
    have : (tableOp fs op).1 = true ∧ ∀ t k, ((tableOp fs op).2 t).disk.faults k = none := by
      cases op with
      | write t b =>
        refine ⟨(bufWriteAll_ok b (h t)).1, fun t' k => ?_⟩
        simp only [tableOp]
        split
        · exact (bufWriteAll_ok b (h t)).2 k
        · exact h t' k
      | flush t =>
        refine ⟨(flushBuf_ok (h t)).1, fun t' k => ?_⟩
        simp only [tableOp]
        split
        · exact (flushBuf_ok (h t)).2 k
        · exact h t' k
    simp only [tableOps, this.1, if_true]
    exact ih this.2

/-- C94, as it is: a writer of a dump that is stopped within `close` can leave a dump that reads well and lacks its ways. `rows` are the operations before the tables are closed,
as in C79. When less than 8 kB went to each of the tables of ways, there is a point of `close` at which everything else is complete
on the disk and these are empty, although no operation has failed; and the dump is then read to its end and gives just what the complete dump gives, without the ways. -/
theorem C94_torn (z : Codec) (hz : Faithful z) (le : Text → Text → Prop) (uc cc : Int64 → Int64) (es : List Element) (files sorted : Table → Text)
    (hd : Dump z uc cc es files) (hs : Storable es) (hsort : SortedCopy le files sorted) (rows : List TableOp)
    (hw : ∀ t, writtenTo t rows ++ Wire.strBytes "\\.\n" = Wire.strBytes (String.ofList (files t))) (hf : ∀ t, TableOp.flush t ∉ rows)
    (hsmall : ∀ t ∈ wayTables, (writtenTo t rows).length < 8192) :
    (∃ ops fs, ops <+: rows ++ closeOps ∧ tableOps (freshFiles fun _ _ => none) ops = (true, fs) ∧
      ∀ t, (fs t).disk.file = Wire.strBytes (String.ofList (withoutWayTables files t))) ∧
    SortedCopy le (withoutWayTables files) (withoutWayTables sorted) ∧
    ∃ it it' ns ns' ws ws' rs rs', Back z le es ns ns' ws ws' rs rs' ∧ ElementIterator.new dumpTables (withoutWayTables sorted) = .ok it ∧
      Iterates (ElementIterator.next z) it (withSentinels ns' [] rs') it' := by
  refine ⟨?_, ?_, ?_⟩
  · have hco : closeOrder = closeOrder.take 50 ++ wayTables := by decide
    refine ⟨rows ++ (closeOrder.take 50).flatMap fun t => [.write t (Wire.strBytes "\\.\n"), .flush t], _, ?_, Prod.ext (ops_succeed _ (by simp [freshFiles])) rfl, ?_⟩
    · rw [closeOps]
      conv => rhs; rw [hco]
      rw [List.flatMap_append, ← List.append_assoc]
      exact List.prefix_append _ _
    · intro t
      have hok : tableOps (freshFiles fun _ _ => none) (rows ++ (closeOrder.take 50).flatMap fun t => [.write t (Wire.strBytes "\\.\n"), .flush t]) =
        (true, (tableOps (freshFiles fun _ _ => none) (rows ++ (closeOrder.take 50).flatMap fun t => [.write t (Wire.strBytes "\\.\n"), .flush t])).2) :=
        Prod.ext (ops_succeed _ (by simp [freshFiles])) rfl
      by_cases ht : t ∈ wayTables
      · have hnone : writtenTo t ((closeOrder.take 50).flatMap fun t => [.write t (Wire.strBytes "\\.\n"), .flush t]) = [] := by
          simp only [wayTables, List.mem_cons, List.not_mem_nil, or_false] at ht
          rcases ht with rfl | rfl | rfl <;> decide +kernel
        have hnf : TableOp.flush t ∉ rows ++ (closeOrder.take 50).flatMap fun t => [.write t (Wire.strBytes "\\.\n"), .flush t] := by
          intro hm
          rcases List.mem_append.1 hm with hm | hm
          · exact hf t hm
          · simp only [List.mem_flatMap, List.mem_cons, List.not_mem_nil, or_false, reduceCtorEq, false_or, TableOp.flush.injEq] at hm
            obtain ⟨t', h1, rfl⟩ := hm
            simp only [wayTables, List.mem_cons, List.not_mem_nil, or_false] at ht
            rcases ht with rfl | rfl | rfl <;> exact absurd h1 (by decide)
        rw [ops_buffered t _ hnf hok (by
          rw [writtenTo_append, hnone, List.append_nil]
          simpa [freshFiles, bufCapacity] using hsmall t ht)]
        simp only [withoutWayTables, if_pos ht]
        show ([] : Bytes) = _
        decide
      · have hin : t ∈ closeOrder.take 50 := by
          have := mem_closeOrder t
          rw [hco, List.mem_append] at this
          exact this.resolve_right ht
        obtain ⟨a, b, e, hb⟩ := flushed_flatMap t (Wire.strBytes "\\.\n") (closeOrder.take 50) (by decide +kernel) hin
        rw [C79_complete (fun _ _ => none) _ _ hok t ⟨rows ++ a, b, by rw [e, List.append_assoc], hb⟩, writtenTo_append]
        simp only [withoutWayTables, if_neg ht]
        rw [← hw t]
        congr 1
        clear hok hsmall hw hf hsort hs hd e hb
        simp only [wayTables, List.mem_cons, List.not_mem_nil, or_false] at ht
        cases t <;> first | (exfalso; simp at ht; done) | decide +kernel
  · intro t d f hdt
    by_cases ht : t ∈ wayTables
    · simp only [withoutWayTables, if_pos ht]
      exact ⟨by simp [lines_nil], by simp [lines_nil]⟩
    · simp only [withoutWayTables, if_neg ht]
      exact hsort t d f hdt
  · obtain ⟨it, it', ns, ns', ws, ws', rs, rs', h1, h2, -, h4⟩ := C53_round_trip z hz le uc cc es files sorted hd hs hsort
    refine ⟨it.noWays, it'.noWays, ns, ns', ws, ws', rs, rs', h4, new_noWays h1, ?_⟩
    have := iterates_noWays h2
    have e : withoutWays (withSentinels ns' ws' rs') = withSentinels ns' [] rs' := by
      simp only [withoutWays, withSentinels, List.filter_append, List.filter_map]
      simp [Function.comp_def]
    rwa [e] at this

/-! ## Sample data -/

theorem strBytes_append' (a b : Text) : Wire.strBytes (String.ofList (a ++ b)) = Wire.strBytes (String.ofList a) ++ Wire.strBytes (String.ofList b) := by
  simp [Wire.strBytes, String.ofList_append, String.toByteArray_append]

theorem writtenTo_each (body : Table → Bytes) (t : Table) : ∀ ts : List Table, ts.Nodup →
    writtenTo t (ts.map fun t => TableOp.write t (body t)) = if t ∈ ts then body t else [] := by
  intro ts
  induction ts with
  | nil => intro _; rfl
  | cons u ts ih =>
    intro hn
    rw [List.nodup_cons] at hn
    simp only [List.map_cons, writtenTo, ih hn.2]
    by_cases hu : u = t
    · subst hu; simp [hn.1]
    · simp [hu, Ne.symm hu]

/-- The hypotheses of `C94_torn` are met by a dump of nodes, a way and relations. -/
example : ∃ files sorted rows, Dump RoundTripExample.codec (fun _ => 0) (fun _ => 0) RoundTripExample.es files ∧ Faithful RoundTripExample.codec ∧
    Storable RoundTripExample.es ∧ SortedCopy RoundTripExample.le files sorted ∧ Spec.waysOf RoundTripExample.es ≠ [] ∧
    (∀ t, writtenTo t rows ++ Wire.strBytes "\\.\n" = Wire.strBytes (String.ofList (files t))) ∧ (∀ t, TableOp.flush t ∉ rows) ∧
    ∀ t ∈ wayTables, (writtenTo t rows).length < 8192 := by
  obtain ⟨files, sorted, hd, hs⟩ := RoundTripExample.dump
  have hst : Storable RoundTripExample.es := RoundTripExample.storable
  have hb : ∀ t, ∃ body : Text, files t = body ++ endMarker := fun t => by
    obtain ⟨rows, h, -⟩ := C50_terminated _ _ _ _ _ hd RoundTripExample.faithful.newline (fun p hp => (hst.names p hp).2) t
    exact ⟨_, h⟩
  choose body hbody using hb
  have hw : ∀ t, writtenTo t (closeOrder.map fun t => TableOp.write t (Wire.strBytes (String.ofList (body t)))) = Wire.strBytes (String.ofList (body t)) := by
    intro t
    rw [writtenTo_each (fun t => Wire.strBytes (String.ofList (body t))) t closeOrder (by decide +kernel), if_pos (mem_closeOrder t)]
  refine ⟨files, sorted, closeOrder.map fun t => TableOp.write t (Wire.strBytes (String.ofList (body t))), hd, RoundTripExample.faithful, hst, hs,
    by decide +kernel, fun t => ?_, fun t => by simp, fun t ht => ?_⟩
  · rw [hw, hbody t, strBytes_append']
    rfl
  · rw [hw]
    obtain ⟨-, -, c1, c2, c3, -⟩ := C42_history _ _ _ _ _ hd
    simp only [wayTables, List.mem_cons, List.not_mem_nil, or_false] at ht
    rcases ht with rfl | rfl | rfl
    · rw [hbody, List.append_left_inj] at c2
      rw [c2]; decide +kernel
    · rw [hbody, List.append_left_inj] at c3
      rw [c3]; decide +kernel
    · rw [hbody, List.append_left_inj] at c1
      rw [c1]; decide +kernel

/-- A writer stopped after a node with a tag has been written. -/
example : ∃ disk, StoppedUnclosed RoundTripExample.codec [.node RoundTripExample.n1] disk := by
  have : ∃ w, Apidb.Writer.new.writeAll RoundTripExample.codec [.node RoundTripExample.n1] = .ok w := by
    cases e : Apidb.Writer.new.writeAll RoundTripExample.codec [.node RoundTripExample.n1] with
    | ok w => exact ⟨w, rfl⟩
    | err =>
      exfalso
      have : (match Apidb.Writer.new.writeAll RoundTripExample.codec [.node RoundTripExample.n1] with | .ok _ => true | _ => false) = true := by decide +kernel
      rw [e] at this; cases this
    | panic =>
      exfalso
      have : (match Apidb.Writer.new.writeAll RoundTripExample.codec [.node RoundTripExample.n1] with | .ok _ => true | _ => false) = true := by decide +kernel
      rw [e] at this; cases this
  obtain ⟨w, hw⟩ := this
  refine ⟨_, w, hw, closeOrder.map fun t => TableOp.write t (Wire.strBytes (String.ofList (w.files t))), [.write .acls (Wire.strBytes (String.ofList (w.files .acls)))], fun _ _ => none,
    fun t => ?_, ⟨_, rfl⟩, rfl⟩
  rw [writtenTo_each (fun t => Wire.strBytes (String.ofList (w.files t))) t closeOrder (by decide +kernel), if_pos (mem_closeOrder t)]

end OsmIo
