import Verif.Props.DumpRenamed
/-!
# The order in which elements are written to a dump does not matter (C104)
-/
namespace OsmIo
open Text Sql Apidb Spec Wire

/-! ### What comes back is determined -/

theorem flooredToSecond_det {t a b : Int64} (ha : FlooredToSecond t a) (hb : FlooredToSecond t b) : a = b := by
  obtain ⟨s, h1, h2, h3⟩ := ha
  obtain ⟨s', g1, g2, g3⟩ := hb
  apply Int64.toInt_inj.1
  omega

theorem tags_det {z : Codec} (hz : Faithful z) {le : Text → Text → Prop} (anti : ∀ a b, le a b → le b a → a = b)
    {ts a b : List Tag} (ha : a.Perm ts ∧ a.Pairwise (TagLe z le)) (hb : b.Perm ts ∧ b.Pairwise (TagLe z le))
    (hk : (ts.map Tag.k).Nodup) : a = b :=
  List.Perm.eq_of_pairwise (fun _ _ _ _ h1 h2 => (h1.2 h2.1).elim) (tags_strict hz anti ha hk) (tags_strict hz anti hb hk)
    (ha.1.trans hb.1.symm)

theorem memberLe_antisymm {z : Codec} (hz : Faithful z) {le : Text → Text → Prop} (anti : ∀ a b, le a b → le b a → a = b)
    {a b : Member} (h1 : MemberLe z le a b) (h2 : MemberLe z le b a) : a = b := by
  have ht := anti _ _ h1.1 h2.1
  have hid : memberId a = memberId b ∧ le (z.escape (memberRole a)) (z.escape (memberRole b)) := by
    rcases h1.2 h2.1 with h | h
    · rcases h2.2 h1.1 with h' | h'
      · simp only [Int64.lt_iff_toInt_lt] at h h'; omega
      · rw [h'.1] at h
        simp only [Int64.lt_iff_toInt_lt] at h; omega
    · exact h
  have hid' : le (z.escape (memberRole b)) (z.escape (memberRole a)) := by
    rcases h2.2 h1.1 with h' | h'
    · rw [hid.1] at h'
      simp only [Int64.lt_iff_toInt_lt] at h'; omega
    · exact h'.2
  have hr : memberRole a = memberRole b := by
    have e := hz.unescape (memberRole a)
    rw [anti _ _ hid.2 hid', hz.unescape] at e
    exact (Option.some.inj e).symm
  cases a <;> cases b <;> simp only [memberType, memberId, memberRole, List.cons.injEq, Char.reduceEq, false_and, reduceCtorEq] at ht hid hr <;>
    (congr 1; rename_i x y; cases x; cases y; simp_all)

theorem forall₂_det {α β : Type} {P Q : α → β → Prop} {l : List α} {a b : List β} (ha : List.Forall₂ P l a) (hb : List.Forall₂ Q l b)
    (h : ∀ x ∈ l, ∀ y z, P x y → Q x z → y = z) : a = b := by
  induction ha generalizing b with
  | nil => cases hb; rfl
  | cons hp _ ih =>
    cases hb with
    | cons hq hb =>
      rw [h _ (by simp) _ _ hp hq, ih hb fun x hx => h x (by simp [hx])]

/-- The owners of changesets are the same. -/
structure SameOwners (es₁ es₂ : List Element) : Prop where
  changesets : ∀ k, lastValue (changesetUsers es₁) k = lastValue (changesetUsers es₂) k
  users : ∀ k, lastValue (userNames es₁) k = lastValue (userNames es₂) k

theorem owner_det {es₁ es₂ : List Element} (h : SameOwners es₁ es₂) {c : Int64} {u u' : Int32} {n n' : String} (h₁ : OwnerIn es₁ c u n)
    (h₂ : OwnerIn es₂ c u' n') : u = u' ∧ n = n' := by
  refine ownerIn_det (es := es₂) ?_ h₂
  obtain ⟨a, h1, h2, h3⟩ := h₁
  exact ⟨a, by rw [← h.changesets]; exact h1, h2, by rw [← h.users]; exact h3⟩

theorem back_det {z : Codec} (hz : Faithful z) {le : Text → Text → Prop} (anti : ∀ a b, le a b → le b a → a = b) {es₁ es₂ : List Element}
    {ns ns' ms ms' : List Node} {ws ws' xs xs' : List Way} {rs rs' ss ss' : List Relation}
    (h₁ : Back z le es₁ ns ns' ws ws' rs rs') (h₂ : Back z le es₂ ms ms' xs xs' ss ss')
    (hn : (nodesOf es₁).Perm (nodesOf es₂)) (hw : (waysOf es₁).Perm (waysOf es₂)) (hr : (relationsOf es₁).Perm (relationsOf es₂))
    (ho : SameOwners es₁ es₂) (hk : ∀ e ∈ es₁, ((tagsOf e).map Tag.k).Nodup) : ns' = ms' ∧ ws' = xs' ∧ rs' = ss' := by
  have e1 : ns = ms := sorted_unique (key := fun a : Node => (a.id, a.version)) (h₁.nodes.1.trans (hn.trans h₂.nodes.1.symm)) h₂.nodes.2.1 h₁.nodes.2.1
  have e2 : ws = xs := sorted_unique (key := fun a : Way => (a.id, a.version)) (h₁.ways.1.trans (hw.trans h₂.ways.1.symm)) h₂.ways.2.1 h₁.ways.2.1
  have e3 : rs = ss := sorted_unique (key := fun a : Relation => (a.id, a.version)) (h₁.relations.1.trans (hr.trans h₂.relations.1.symm)) h₂.relations.2.1 h₁.relations.2.1
  subst e1 e2 e3
  refine ⟨forall₂_det h₁.nodes.2.2 h₂.nodes.2.2 ?_, forall₂_det h₁.ways.2.2 h₂.ways.2.2 ?_, forall₂_det h₁.relations.2.2 h₂.relations.2.2 ?_⟩
  · intro n hm a b ha hb
    have he := mem_nodesOf (h₁.nodes.1.subset hm)
    have o := owner_det ho ha.owner hb.owner
    have hp : a.coordinate = b.coordinate := ha.place.trans hb.place.symm
    rw [ha.rest, hb.rest, flooredToSecond_det ha.time hb.time, o.1, o.2, tags_det hz anti ha.tags hb.tags (hk _ he), hp]
  · intro n hm a b ha hb
    have he := mem_waysOf (h₁.ways.1.subset hm)
    have o := owner_det ho ha.owner hb.owner
    rw [ha.rest, hb.rest, flooredToSecond_det ha.time hb.time, o.1, o.2, tags_det hz anti ha.tags hb.tags (hk _ he)]
  · intro n hm a b ha hb
    have he := mem_relationsOf (h₁.relations.1.subset hm)
    have o := owner_det ho ha.owner hb.owner
    have hp : a.members = b.members :=
      List.Perm.eq_of_pairwise (fun _ _ _ _ h1 h2 => memberLe_antisymm hz anti h1 h2) ha.members.2 hb.members.2 (ha.members.1.trans hb.members.1.symm)
    rw [ha.rest, hb.rest, flooredToSecond_det ha.time hb.time, o.1, o.2, tags_det hz anti ha.tags hb.tags (hk _ he), hp]

theorem filterMap_real {β : Type} (f : Element → Option β) (hf : f .sentinel = none) (es : List Element) :
    (realOnes es).filterMap f = es.filterMap f := by
  induction es with
  | nil => rfl
  | cons e es ih =>
    cases e with
    | sentinel => rw [List.filterMap_cons_none hf]; exact ih
    | node n => exact (show List.filterMap f (.node n :: realOnes es) = _ by rw [List.filterMap_cons, List.filterMap_cons, ih])
    | way n => exact (show List.filterMap f (.way n :: realOnes es) = _ by rw [List.filterMap_cons, List.filterMap_cons, ih])
    | relation n => exact (show List.filterMap f (.relation n :: realOnes es) = _ by rw [List.filterMap_cons, List.filterMap_cons, ih])

theorem filterMap_real_perm {β : Type} (f : Element → Option β) (hf : f .sentinel = none) {es₁ es₂ : List Element}
    (hp : (realOnes es₁).Perm (realOnes es₂)) : (es₁.filterMap f).Perm (es₂.filterMap f) := by
  rw [← filterMap_real f hf es₁, ← filterMap_real f hf es₂]
  exact hp.filterMap _

theorem sameOwners_of_perm {es₁ es₂ : List Element} (hp : (realOnes es₁).Perm (realOnes es₂)) (hc : Consistent es₁) : SameOwners es₁ es₂ := by
  have hcs : (changesetUsers es₁).Perm (changesetUsers es₂) := filterMap_real_perm _ rfl hp
  have hus : (userNames es₁).Perm (userNames es₂) := filterMap_real_perm _ rfl hp
  constructor
  · intro k
    exact (lastValue_same hc.changesets (fun p hp => hcs.symm.subset hp) (fun k v h => hcs.subset (lastValue_mem h)) k).symm
  · intro k
    exact (lastValue_same hc.users (fun p hp => hus.symm.subset hp) (fun k v h => hus.subset (lastValue_mem h)) k).symm

theorem consistent_perm {es₁ es₂ : List Element} (hp : (realOnes es₁).Perm (realOnes es₂)) (hc : Consistent es₁) : Consistent es₂ := by
  have hcs : (changesetUsers es₁).Perm (changesetUsers es₂) := filterMap_real_perm _ rfl hp
  have hus : (userNames es₁).Perm (userNames es₂) := filterMap_real_perm _ rfl hp
  exact ⟨fun p h q h' => hc.changesets p (hcs.symm.subset h) q (hcs.symm.subset h'), fun p h q h' => hc.users p (hus.symm.subset h) q (hus.symm.subset h')⟩

theorem storable_perm {es₁ es₂ : List Element} (hp : (realOnes es₁).Perm (realOnes es₂)) (h : Storable es₁) : Storable es₂ := by
  have hn : (nodesOf es₁).Perm (nodesOf es₂) := filterMap_real_perm _ rfl hp
  have hw : (waysOf es₁).Perm (waysOf es₂) := filterMap_real_perm _ rfl hp
  have hr : (relationsOf es₁).Perm (relationsOf es₂) := filterMap_real_perm _ rfl hp
  have hus : (userNames es₁).Perm (userNames es₂) := filterMap_real_perm _ rfl hp
  exact ⟨h.nodes.perm hn (fun h e => h ⟨e.1.symm, e.2.symm⟩), h.ways.perm hw (fun h e => h ⟨e.1.symm, e.2.symm⟩),
    h.relations.perm hr (fun h e => h ⟨e.1.symm, e.2.symm⟩), fun n hm => h.coordinates n (hn.symm.subset hm),
    fun p hm => h.names p (hus.symm.subset hm), fun n hm => h.refs n (hw.symm.subset hm), fun n hm => h.members n (hr.symm.subset hm)⟩

/-- C104. What a dump gives back is determined by the elements written, whatever their order, the times of writing and the ways of sorting the tables, as far as the owners of changesets are the same. -/
theorem C104_determined (z : Codec) (hz : Faithful z) (le : Text → Text → Prop) (anti : ∀ a b, le a b → le b a → a = b)
    (uc₁ cc₁ uc₂ cc₂ : Int64 → Int64) (es₁ es₂ : List Element) (files₁ sorted₁ files₂ sorted₂ : Table → Text)
    (hd₁ : Dump z uc₁ cc₁ es₁ files₁) (hd₂ : Dump z uc₂ cc₂ es₂ files₂) (hs₁ : Storable es₁) (hs₂ : Storable es₂)
    (hn : (nodesOf es₁).Perm (nodesOf es₂)) (hw : (waysOf es₁).Perm (waysOf es₂)) (hr : (relationsOf es₁).Perm (relationsOf es₂))
    (hcs : ∀ k, lastValue (changesetUsers es₁) k = lastValue (changesetUsers es₂) k) (hus : ∀ k, lastValue (userNames es₁) k = lastValue (userNames es₂) k)
    (hk : ∀ e ∈ es₁, ((tagsOf e).map Tag.k).Nodup) (hsort₁ : SortedCopy le files₁ sorted₁) (hsort₂ : SortedCopy le files₂ sorted₂) :
    ∃ out it it' jt jt', ElementIterator.new dumpTables sorted₁ = .ok it ∧ Iterates (ElementIterator.next z) it out it' ∧
      ElementIterator.new dumpTables sorted₂ = .ok jt ∧ Iterates (ElementIterator.next z) jt out jt' := by
  obtain ⟨it, it', ns, ns', ws, ws', rs, rs', h1, h2, _, hb⟩ := C53_round_trip z hz le uc₁ cc₁ es₁ files₁ sorted₁ hd₁ hs₁ hsort₁
  obtain ⟨jt, jt', ms, ms', xs, xs', ss, ss', g1, g2, _, gb⟩ := C53_round_trip z hz le uc₂ cc₂ es₂ files₂ sorted₂ hd₂ hs₂ hsort₂
  obtain ⟨rfl, rfl, rfl⟩ := back_det hz anti hb gb hn hw hr ⟨hcs, hus⟩ hk
  exact ⟨_, it, it', jt, jt', h1, h2, g1, g2⟩

/-- C104. The order in which elements are written to a dump, and into how many sessions the writing is split, does not matter: with one user for each changeset and one name for
each user, what comes back is the same. -/
theorem C104_order (z : Codec) (hz : Faithful z) (le : Text → Text → Prop) (anti : ∀ a b, le a b → le b a → a = b)
    (ss₁ ss₂ : List Session) (files₁ sorted₁ files₂ sorted₂ : Table → Text)
    (hd₁ : InSessions z ss₁ files₁) (hd₂ : InSessions z ss₂ files₂) (hp : (realOnes (allOf ss₁)).Perm (realOnes (allOf ss₂)))
    (hs : Storable (allOf ss₁)) (hc : Consistent (allOf ss₁)) (hk : ∀ e ∈ allOf ss₁, ((tagsOf e).map Tag.k).Nodup)
    (hsort₁ : SortedCopy le files₁ sorted₁) (hsort₂ : SortedCopy le files₂ sorted₂) :
    ∃ out it it' jt jt', ElementIterator.new dumpTables sorted₁ = .ok it ∧ Iterates (ElementIterator.next z) it out it' ∧
      ElementIterator.new dumpTables sorted₂ = .ok jt ∧ Iterates (ElementIterator.next z) jt out jt' := by
  obtain ⟨it, it', ns, ns', ws, ws', rs, rs', h1, h2, _, hb⟩ := C95_read_back z hz le ss₁ files₁ sorted₁ hd₁ hs hc hsort₁
  obtain ⟨jt, jt', ms, ms', xs, xs', qs, qs', g1, g2, _, gb⟩ :=
    C95_read_back z hz le ss₂ files₂ sorted₂ hd₂ (storable_perm hp hs) (consistent_perm hp hc) hsort₂
  obtain ⟨rfl, rfl, rfl⟩ := back_det hz anti hb gb (filterMap_real_perm _ rfl hp) (filterMap_real_perm _ rfl hp) (filterMap_real_perm _ rfl hp)
    (sameOwners_of_perm hp hc) hk
  exact ⟨_, it, it', jt, jt', h1, h2, g1, g2⟩

/-- C104. `pbf-to-apidb` and then `apidb-to-pbf`, for two files with the same elements in any two orders: whatever the second program does with the one dump, it does with the other,
down to the bytes of its file. -/
theorem C104_programs (z : Zlib) (cod : Codec) (hcod : Faithful cod) (le : Text → Text → Prop) (anti : ∀ a b, le a b → le b a → a = b)
    (uc₁ cc₁ uc₂ cc₂ : Int64 → Int64) (in₁ in₂ : Bytes) (es₁ es₂ : List Element) (hr₁ : ReadsElements z in₁ es₁ .done) (hr₂ : ReadsElements z in₂ es₂ .done)
    (hp : (realOnes es₁).Perm (realOnes es₂)) (hs : Storable es₁) (hc : Consistent es₁) (hk : ∀ e ∈ es₁, ((tagsOf e).map Tag.k).Nodup)
    (files₁ sorted₁ files₂ sorted₂ : Table → Text) (hd₁ : PbfToApidb z cod uc₁ cc₁ in₁ (.ok files₁)) (hd₂ : PbfToApidb z cod uc₂ cc₂ in₂ (.ok files₂))
    (hsort₁ : SortedCopy le files₁ sorted₁) (hsort₂ : SortedCopy le files₂ sorted₂) (info : FileInfo) (c : CompressionType) (r : Out Bytes) :
    ApidbToPbf z cod dumpTables sorted₁ info c r ↔ ApidbToPbf z cod dumpTables sorted₂ info c r := by
  have dump : ∀ {uc cc : Int64 → Int64} {file : Bytes} {es : List Element} {files : Table → Text}, ReadsElements z file es .done →
      PbfToApidb z cod uc cc file (.ok files) → Dump cod uc cc es files := by
    intro uc cc file es files hr h
    rw [PbfToApidb] at h
    split at h
    · exact nomatch h
    · exact nomatch h
    · obtain ⟨es', e, hr', h⟩ := h
      obtain ⟨rfl, rfl⟩ := reads_det hr' hr
      obtain ⟨w, h1, h2⟩ := Out.bind_eq_ok.1 h.symm
      obtain ⟨w', h3, h4⟩ := Out.bind_eq_ok.1 h2
      exact ⟨w, w', h1, h3, (Out.ok.inj h4).symm⟩
  have ho := sameOwners_of_perm hp hc
  obtain ⟨out, it, it', jt, jt', h1, h2, g1, g2⟩ := C104_determined cod hcod le anti _ _ _ _ es₁ es₂ files₁ sorted₁ files₂ sorted₂ (dump hr₁ hd₁) (dump hr₂ hd₂) hs
    (storable_perm hp hs) (filterMap_real_perm _ rfl hp) (filterMap_real_perm _ rfl hp) (filterMap_real_perm _ rfl hp) ho.changesets ho.users hk hsort₁ hsort₂
  rw [apidbToPbf_iff h1 h2, apidbToPbf_iff g1 g2]

namespace RoundTripExample

/-- Two elements in one changeset that name its user differently. -/
def disagreeing : List Element := [.way (firstDay "Ada"), .way (nextDay "Eve")]

/-- The files of a dump of some elements. -/
def runOf (es : List Element) : Option (Table → Text) :=
  match Apidb.Writer.new.writeAll codec es with
  | .ok w => match w.close (fun _ => 0) (fun _ => 0) with
    | .ok w' => some w'.files
    | _ => none
  | _ => none

theorem runOf_dump (es : List Element) (f : Table → Text) (h : runOf es = some f) : Dump codec (fun _ => 0) (fun _ => 0) es f := by
  rw [runOf] at h
  split at h
  · rename_i w e
    split at h
    · rename_i w' e'
      exact ⟨w, w', e, e', (Option.some.inj h).symm⟩
    · exact nomatch h
  · exact nomatch h

/-- Elements that come back changed, with one user for each changeset. -/
def agreeing : List Element := [.relation r2, .node { rough with changeset := 9 }, .node n1]

/-- The hypotheses of `C104_determined` and `C104_order` are met by two orders of these elements. -/
example : ∃ files₁ files₂ sorted₁ sorted₂ out it it' jt jt', Dump codec (fun _ => 0) (fun _ => 0) agreeing files₁ ∧
    Dump codec (fun _ => 5000000) (fun _ => 0) agreeing.reverse files₂ ∧ SortedCopy le files₁ sorted₁ ∧ SortedCopy le files₂ sorted₂ ∧
    ElementIterator.new dumpTables sorted₁ = .ok it ∧ Iterates (ElementIterator.next codec) it out it' ∧
    ElementIterator.new dumpTables sorted₂ = .ok jt ∧ Iterates (ElementIterator.next codec) jt out jt' := by
  have tot := fun a b : Text => List.le_total a b
  have ht : ∀ e ∈ agreeing, TimeOk e := by
    intro e he
    simp only [agreeing, List.mem_cons, List.not_mem_nil, or_false] at he
    rcases he with rfl | rfl | rfl <;> (unfold TimeOk; decide +kernel)
  have hp : (realOnes agreeing).Perm (realOnes agreeing.reverse) := (List.reverse_perm agreeing).symm.filter _
  have hs : Storable agreeing := by
    refine ⟨by simp [Spec.nodesOf, agreeing, rough, n1], by simp [Spec.waysOf, agreeing], by simp [Spec.relationsOf, agreeing], ?_, ?_, by simp [Spec.waysOf, agreeing],
      by simp [Spec.relationsOf, agreeing, r2]⟩
    · intro n hn
      have : n = { rough with changeset := 9 } ∨ n = n1 := by simpa [Spec.nodesOf, agreeing] using hn
      rcases this with rfl | rfl <;> exact ⟨by decide +kernel, by decide +kernel⟩
    · have e : userNames agreeing = [(7, "Ada"), (8, "Bob"), (7, "Ada")] := rfl
      rw [e]; decide
  have hc : Consistent agreeing := by
    constructor
    · have e : changesetUsers agreeing = [(6, 7), (9, 8), (5, 7)] := rfl
      rw [e]; decide
    · have e : userNames agreeing = [(7, "Ada"), (8, "Bob"), (7, "Ada")] := rfl
      rw [e]; decide
  obtain ⟨f₁, hd₁⟩ := dump_total codec (fun _ => 0) (fun _ => 0) agreeing ht (fun _ => by decide +kernel) (fun _ => by decide +kernel)
  obtain ⟨f₂, hd₂⟩ := dump_total codec (fun _ => 5000000) (fun _ => 0) agreeing.reverse (fun e he => ht e (List.mem_reverse.1 he))
    (fun _ => by decide +kernel) (fun _ => by decide +kernel)
  obtain ⟨s₁, hs₁⟩ := C53_sortable codec faithful le tot (fun a b c => List.le_trans) _ _ _ f₁ hd₁ hs.names
  obtain ⟨s₂, hs₂⟩ := C53_sortable codec faithful le tot (fun a b c => List.le_trans) _ _ _ f₂ hd₂ (storable_perm hp hs).names
  have ho := sameOwners_of_perm hp hc
  obtain ⟨out, it, it', jt, jt', h⟩ := C104_determined codec faithful le (fun a b h h' => List.le_antisymm h h') _ _ _ _ _ _ f₁ s₁ f₂ s₂ hd₁ hd₂ hs (storable_perm hp hs)
    (filterMap_real_perm _ rfl hp) (filterMap_real_perm _ rfl hp) (filterMap_real_perm _ rfl hp) ho.changesets ho.users (by
      intro e he
      simp only [agreeing, List.mem_cons, List.not_mem_nil, or_false] at he
      rcases he with rfl | rfl | rfl <;> decide +kernel) hs₁ hs₂
  exact ⟨f₁, f₂, s₁, s₂, out, it, it', jt, jt', hd₁, hd₂, hs₁, hs₂, h⟩

end RoundTripExample

open RoundTripExample in
/-- C104, as it is: when elements of a changeset disagree about its user, or elements of a user about the name, the order of writing decides whose name all of them get. -/
theorem C104_order_matters :
    ∃ (files₁ files₂ sorted₁ sorted₂ : Table → Text) (it it' jt jt' : ElementIterator),
      Dump codec (fun _ => 0) (fun _ => 0) disagreeing files₁ ∧ Dump codec (fun _ => 0) (fun _ => 0) disagreeing.reverse files₂ ∧
      SortedCopy le files₁ sorted₁ ∧ SortedCopy le files₂ sorted₂ ∧ Storable disagreeing ∧
      ElementIterator.new dumpTables sorted₁ = .ok it ∧
      Iterates (ElementIterator.next codec) it [.sentinel, .way (firstDay "Eve"), .way (nextDay "Eve"), .sentinel, .sentinel] it' ∧
      ElementIterator.new dumpTables sorted₂ = .ok jt ∧
      Iterates (ElementIterator.next codec) jt [.sentinel, .way (firstDay "Ada"), .way (nextDay "Ada"), .sentinel, .sentinel] jt' := by
  obtain ⟨f, hf⟩ : ∃ f, runOf disagreeing = some f := Option.isSome_iff_exists.1 (by decide +kernel)
  obtain ⟨g, hg⟩ : ∃ f, runOf disagreeing.reverse = some f := Option.isSome_iff_exists.1 (by decide +kernel)
  have h1 : goodCopy .nodes f = true ∧ readTurned .nodes f = some [.sentinel, .way (firstDay "Eve"), .way (nextDay "Eve"), .sentinel, .sentinel] := by
    have : (runOf disagreeing).all (fun f => decide (goodCopy .nodes f = true ∧
      readTurned .nodes f = some [.sentinel, .way (firstDay "Eve"), .way (nextDay "Eve"), .sentinel, .sentinel])) = true := by decide +kernel
    rw [hf] at this
    exact of_decide_eq_true this
  have h2 : goodCopy .ways g = true ∧ readTurned .ways g = some [.sentinel, .way (firstDay "Ada"), .way (nextDay "Ada"), .sentinel, .sentinel] := by
    have : (runOf disagreeing.reverse).all (fun f => decide (goodCopy .ways f = true ∧
      readTurned .ways f = some [.sentinel, .way (firstDay "Ada"), .way (nextDay "Ada"), .sentinel, .sentinel])) = true := by decide +kernel
    rw [hg] at this
    exact of_decide_eq_true this
  obtain ⟨it, it', i1, i2⟩ := readTurned_iterates _ _ _ h1.2
  obtain ⟨jt, jt', j1, j2⟩ := readTurned_iterates _ _ _ h2.2
  refine ⟨f, g, _, _, it, it', jt, jt', runOf_dump _ _ hf, runOf_dump _ _ hg, goodCopy_sorted _ _ h1.1, goodCopy_sorted _ _ h2.1, ?_, i1, i2, j1, j2⟩
  refine ⟨by simp [disagreeing, Spec.nodesOf], by simp [disagreeing, Spec.waysOf, firstDay, nextDay], by simp [disagreeing, Spec.relationsOf], by simp [disagreeing, Spec.nodesOf], ?_,
    by simp [disagreeing, Spec.waysOf, firstDay, nextDay], by simp [disagreeing, Spec.relationsOf]⟩
  have e : userNames disagreeing = [(7, "Ada"), (7, "Eve")] := rfl
  rw [e]; decide

end OsmIo
