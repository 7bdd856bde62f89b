import Verif.Props.ApidbSortable
/-!
# Through a dump twice is as through a dump once (C92)
-/
namespace OsmIo
open Text Sql Apidb Spec

/-! ### What came back of one element -/

theorem rnd_within {k : ℤ} {b : ℕ} (hb : b ≤ 180) (hk : |k| ≤ b * 10000000) : |rnd ((k : ℚ) / 10 ^ 7)| ≤ b := by
  rcases lt_or_eq_of_le hk with h | h
  · have h1 : |k| ≤ b * 10000000 - 1 := by omega
    have hq : |(k : ℚ)| ≤ b * 10000000 - 1 := by
      have : ((|k| : ℤ) : ℚ) ≤ ((b * 10000000 - 1 : ℤ) : ℚ) := Int.cast_le.2 h1
      rw [Int.cast_abs, Int.cast_sub, Int.cast_mul, Int.cast_natCast] at this
      norm_num at this ⊢
      exact this
    have hd : |(k : ℚ) / 10 ^ 7| ≤ (b : ℚ) - 1 / 10 ^ 7 := by
      rw [abs_div, abs_of_pos (show (0 : ℚ) < 10 ^ 7 by norm_num), div_le_iff₀ (by norm_num)]
      linarith
    have e := rnd_err ((k : ℚ) / 10 ^ 7)
    have hb' : (b : ℚ) ≤ 180 := by exact_mod_cast hb
    have h3 := abs_sub_abs_le_abs_sub (rnd ((k : ℚ) / 10 ^ 7)) ((k : ℚ) / 10 ^ 7)
    have h4 : (1 : ℚ) / 2 ^ 53 * |(k : ℚ) / 10 ^ 7| ≤ 1 / 2 ^ 53 * 180 :=
      mul_le_mul_of_nonneg_left (by linarith [show (0 : ℚ) < 1 / 10 ^ 7 by norm_num]) (by norm_num)
    have h5 : (1 : ℚ) / 2 ^ 53 * 180 ≤ 1 / 10 ^ 7 := by norm_num
    linarith
  · have hb' : (b : ℤ) ≤ 180 := by exact_mod_cast hb
    have : (k : ℚ) / 10 ^ 7 = b ∨ (k : ℚ) / 10 ^ 7 = -b := by
      rcases abs_choice k with hc | hc
      · left
        rw [hc] at h
        rw [h]; push_cast; norm_num
      · right
        have : k = -(b * 10000000) := by omega
        rw [this]; push_cast; norm_num [neg_div]
    have hr : rnd (b : ℚ) = b := by
      have := rnd_int (b : ℤ) (by rw [abs_of_nonneg (by omega)]; omega)
      simpa using this
    rcases this with e | e
    · rw [e, hr, abs_of_nonneg (by positivity)]
    · rw [e, rnd_neg, hr, abs_neg, abs_of_nonneg (by positivity)]

theorem quantised_within {c c' : F64} {b : ℕ} (hb : b ≤ 180) (h : Quantised c c') (hc : |c| ≤ b) :
    |c'| ≤ b ∧ OnGrid c' := by
  obtain ⟨k, rfl, hk⟩ := h
  have h1 : |(k : ℚ) / 10 ^ 7| < (b : ℚ) + 1 / 10 ^ 7 := by
    have h3 := abs_sub_abs_le_abs_sub ((k : ℚ) / 10 ^ 7) c
    have h4 : ((1 : ℚ) / 2 + 1 / 2 ^ 19) / 10 ^ 7 < 1 / 10 ^ 7 := by norm_num
    have hk' : |(k : ℚ) / 10 ^ 7| - |c| ≤ (1 / 2 + 1 / 2 ^ 19) / 10 ^ 7 := h3.trans hk
    linarith
  rw [abs_div, abs_of_pos (show (0 : ℚ) < 10 ^ 7 by norm_num), div_lt_iff₀ (by norm_num)] at h1
  have h2 : |(k : ℚ)| < b * 10 ^ 7 + 1 := by linarith
  have h3 : ((|k| : ℤ) : ℚ) < ((b * 10000000 + 1 : ℤ) : ℚ) := by
    rw [Int.cast_abs, Int.cast_add, Int.cast_mul, Int.cast_natCast]
    norm_num at h2 ⊢
    exact h2
  have h4 : |k| ≤ b * 10000000 := Int.lt_add_one_iff.1 (Int.cast_lt.1 h3)
  have hb' : (b : ℤ) ≤ 180 := by exact_mod_cast hb
  exact ⟨rnd_within hb h4, k, by omega, rfl⟩

theorem floored_whole {t t' : Int64} (h : FlooredToSecond t t') : WholeSecond t' := by
  obtain ⟨s, h, -⟩ := h
  exact ⟨s, h⟩

theorem floored_range {t t' : Int64} (h : FlooredToSecond t t') : t'.toInt / 1000 = t.toInt / 1000 := by
  obtain ⟨s, h1, h2, h3⟩ := h
  omega

theorem ownerIn_det {es : List Element} {c : Int64} {u u' : Int32} {n n' : String} (h : OwnerIn es c u n)
    (h' : OwnerIn es c u' n') : u = u' ∧ n = n' := by
  obtain ⟨a, h1, rfl, h2⟩ := h
  obtain ⟨b, h1', rfl, h2'⟩ := h'
  rw [h1] at h1'
  cases h1'
  rw [h2] at h2'
  cases h2'
  exact ⟨rfl, rfl⟩

theorem changesetUsers_small {es : List Element} {p : Int64 × Int64} (h : p ∈ changesetUsers es) :
    p.2.toInt32.toInt64 = p.2 := by
  obtain ⟨e, -, h⟩ := List.mem_filterMap.1 h
  cases e <;> simp only [Option.some.injEq, reduceCtorEq] at h <;> subst h <;> simp

theorem ownerIn_name {es : List Element} {c : Int64} {u : Int32} {n : String} (h : OwnerIn es c u n) :
    lastValue (userNames es) u.toInt64 = some n := by
  obtain ⟨a, h1, rfl, h2⟩ := h
  have := changesetUsers_small (lastValue_mem h1)
  simp only at this
  rw [this]; exact h2

theorem tags_strict {z : Codec} (hz : Faithful z) {le : Text → Text → Prop} (anti : ∀ a b, le a b → le b a → a = b)
    {ts ts' : List Tag} (h : ts'.Perm ts ∧ ts'.Pairwise (TagLe z le)) (hk : (ts.map Tag.k).Nodup) :
    ts'.Pairwise fun a b => TagLe z le a b ∧ ¬ TagLe z le b a := by
  have hn : ts'.Pairwise fun a b => a.k ≠ b.k := by
    have : (ts'.map Tag.k).Nodup := (h.1.map Tag.k).nodup_iff.2 hk
    rwa [List.Nodup, List.pairwise_map] at this
  refine (h.2.and hn).imp fun {a b} hab => ⟨hab.1, fun hba => hab.2 ?_⟩
  have := anti _ _ hab.1 hba
  have e := hz.unescape a.k
  rw [this, hz.unescape] at e
  exact (Option.some.inj e).symm

/-! ### What came back of all elements -/

theorem forall₂_right {α β : Type} {P : α → β → Prop} {l : List α} {l' : List β} (h : List.Forall₂ P l l')
    {b : β} (hb : b ∈ l') : ∃ a ∈ l, P a b := by
  induction h with
  | nil => simp at hb
  | cons h _ ih =>
    rcases List.mem_cons.1 hb with rfl | hb
    · exact ⟨_, by simp, h⟩
    · obtain ⟨a, h1, h2⟩ := ih hb
      exact ⟨a, by simp [h1], h2⟩

theorem forall₂_keys {α : Type} {key : α → Int64 × Int32} {P : α → α → Prop} {l l' : List α}
    (h : List.Forall₂ P l l') (hk : ∀ a b, P a b → key b = key a) :
    l'.map key = l.map key := by
  induction h with
  | nil => rfl
  | cons h _ ih => simp [hk _ _ h, ih]

theorem sorted_keys {α : Type} {key : α → Int64 × Int32} {l l' : List α} (e : l'.map key = l.map key)
    (h : l.Pairwise fun a b => KeyBefore (key a) (key b)) : l'.Pairwise fun a b => KeyBefore (key a) (key b) := by
  have : (l.map key).Pairwise KeyBefore := List.pairwise_map.2 h
  rw [← e] at this
  exact List.pairwise_map.1 this

theorem keyBefore_irrefl {a b : Int64 × Int32} (h : KeyBefore a b) (h' : KeyBefore b a) : False := by
  simp only [KeyBefore, Int64.lt_iff_toInt_lt, Int32.lt_iff_toInt_lt, ← Int64.toInt_inj] at h h'
  omega

theorem sorted_unique {α : Type} {key : α → Int64 × Int32} {l l' : List α} (hp : l'.Perm l)
    (h : l.Pairwise fun a b => KeyBefore (key a) (key b)) (h' : l'.Pairwise fun a b => KeyBefore (key a) (key b)) :
    l' = l :=
  List.Perm.eq_of_pairwise (fun _ _ _ _ h1 h2 => (keyBefore_irrefl h1 h2).elim) h' h hp

theorem keyBefore_ne {α : Type} {id : α → Int64} {ver : α → Int32} {l : List α}
    (h : l.Pairwise fun a b => KeyBefore (id a, ver a) (id b, ver b)) :
    l.Pairwise fun a b => ¬ (id a = id b ∧ ver a = ver b) :=
  h.imp fun h e => by
    simp only [KeyBefore, e.1, e.2, Int64.lt_iff_toInt_lt, Int32.lt_iff_toInt_lt] at h
    omega

theorem nodesOf_withSentinels (ns : List Node) (ws : List Way) (rs : List Relation) :
    Spec.nodesOf (withSentinels ns ws rs) = ns := by
  have h1 : Spec.nodesOf (ns.map Element.node) = ns := by
    unfold Spec.nodesOf; rw [List.filterMap_map]; exact (List.filterMap_congr fun _ _ => rfl).trans (List.filterMap_some)
  have h2 : Spec.nodesOf (ws.map Element.way) = [] := by
    unfold Spec.nodesOf; rw [List.filterMap_map]; exact List.filterMap_eq_nil_iff.2 fun _ _ => rfl
  have h3 : Spec.nodesOf (rs.map Element.relation) = [] := by
    unfold Spec.nodesOf; rw [List.filterMap_map]; exact List.filterMap_eq_nil_iff.2 fun _ _ => rfl
  unfold Spec.nodesOf at *
  simp [withSentinels, List.filterMap_append, h1, h2, h3]

theorem waysOf_withSentinels (ns : List Node) (ws : List Way) (rs : List Relation) :
    Spec.waysOf (withSentinels ns ws rs) = ws := by
  have h1 : Spec.waysOf (ns.map Element.node) = [] := by
    unfold Spec.waysOf; rw [List.filterMap_map]; exact List.filterMap_eq_nil_iff.2 fun _ _ => rfl
  have h2 : Spec.waysOf (ws.map Element.way) = ws := by
    unfold Spec.waysOf; rw [List.filterMap_map]; exact (List.filterMap_congr fun _ _ => rfl).trans (List.filterMap_some)
  have h3 : Spec.waysOf (rs.map Element.relation) = [] := by
    unfold Spec.waysOf; rw [List.filterMap_map]; exact List.filterMap_eq_nil_iff.2 fun _ _ => rfl
  unfold Spec.waysOf at *
  simp [withSentinels, List.filterMap_append, h1, h2, h3]

theorem relationsOf_withSentinels (ns : List Node) (ws : List Way) (rs : List Relation) :
    Spec.relationsOf (withSentinels ns ws rs) = rs := by
  have h1 : Spec.relationsOf (ns.map Element.node) = [] := by
    unfold Spec.relationsOf; rw [List.filterMap_map]; exact List.filterMap_eq_nil_iff.2 fun _ _ => rfl
  have h2 : Spec.relationsOf (ws.map Element.way) = [] := by
    unfold Spec.relationsOf; rw [List.filterMap_map]; exact List.filterMap_eq_nil_iff.2 fun _ _ => rfl
  have h3 : Spec.relationsOf (rs.map Element.relation) = rs := by
    unfold Spec.relationsOf; rw [List.filterMap_map]; exact (List.filterMap_congr fun _ _ => rfl).trans (List.filterMap_some)
  unfold Spec.relationsOf at *
  simp [withSentinels, List.filterMap_append, h1, h2, h3]

theorem mem_parts {ns : List Node} {ws : List Way} {rs : List Relation} {e : Element} (h : e ∈ withSentinels ns ws rs) :
    (∃ n ∈ ns, e = .node n) ∨ (∃ w ∈ ws, e = .way w) ∨ (∃ r ∈ rs, e = .relation r) ∨ e = .sentinel := by
  simp only [withSentinels, List.mem_append, List.mem_map, List.mem_cons, List.not_mem_nil, or_false] at h
  rcases h with ((((⟨n, h, rfl⟩ | h) | ⟨n, h, rfl⟩) | h) | ⟨n, h, rfl⟩) | h <;> simp_all

section
variable {z : Codec} {le : Text → Text → Prop} {es : List Element} {ns ns' : List Node} {ws ws' : List Way}
  {rs rs' : List Relation}

/-- Every entry of the users of changesets that came back is as the last elements written say. -/
theorem back_owners (hb : Back z le es ns ns' ws ws' rs rs') {p : Int64 × Int64}
    (h : p ∈ changesetUsers (withSentinels ns' ws' rs')) : lastValue (changesetUsers es) p.1 = some p.2 := by
  obtain ⟨e, he, h⟩ := List.mem_filterMap.1 h
  have key : ∀ {c : Int64} {u : Int32} {n : String}, OwnerIn es c u n → lastValue (changesetUsers es) c = some u.toInt64 := by
    rintro c u n ⟨a, h1, rfl, -⟩
    have := changesetUsers_small (lastValue_mem h1)
    simp only at this
    rw [this]; exact h1
  rcases mem_parts he with ⟨n, hn, rfl⟩ | ⟨n, hn, rfl⟩ | ⟨n, hn, rfl⟩ | rfl
  · obtain ⟨a, -, ha⟩ := forall₂_right hb.nodes.2.2 hn
    simp only [Option.some.injEq] at h; subst h
    have e : n.changeset = a.changeset := by rw [ha.rest]
    simp only [e]; exact key ha.owner
  · obtain ⟨a, -, ha⟩ := forall₂_right hb.ways.2.2 hn
    simp only [Option.some.injEq] at h; subst h
    have e : n.changeset = a.changeset := by rw [ha.rest]
    simp only [e]; exact key ha.owner
  · obtain ⟨a, -, ha⟩ := forall₂_right hb.relations.2.2 hn
    simp only [Option.some.injEq] at h; subst h
    have e : n.changeset = a.changeset := by rw [ha.rest]
    simp only [e]; exact key ha.owner
  · simp at h

/-- Every name that came back is as the last elements written say. -/
theorem back_names (hb : Back z le es ns ns' ws ws' rs rs') {p : Int64 × String}
    (h : p ∈ userNames (withSentinels ns' ws' rs')) : lastValue (userNames es) p.1 = some p.2 := by
  obtain ⟨e, he, h⟩ := List.mem_filterMap.1 h
  rcases mem_parts he with ⟨n, hn, rfl⟩ | ⟨n, hn, rfl⟩ | ⟨n, hn, rfl⟩ | rfl
  · obtain ⟨a, -, ha⟩ := forall₂_right hb.nodes.2.2 hn
    simp only [Option.some.injEq] at h; subst h
    exact ownerIn_name ha.owner
  · obtain ⟨a, -, ha⟩ := forall₂_right hb.ways.2.2 hn
    simp only [Option.some.injEq] at h; subst h
    exact ownerIn_name ha.owner
  · obtain ⟨a, -, ha⟩ := forall₂_right hb.relations.2.2 hn
    simp only [Option.some.injEq] at h; subst h
    exact ownerIn_name ha.owner
  · simp at h

theorem back_consistent (hb : Back z le es ns ns' ws ws' rs rs') : Consistent (withSentinels ns' ws' rs') where
  changesets p hp q hq e := by
    have h1 := back_owners hb hp
    rw [e, back_owners hb hq] at h1
    exact (Option.some.inj h1).symm
  users p hp q hq e := by
    have h1 := back_names hb hp
    rw [e, back_names hb hq] at h1
    exact (Option.some.inj h1).symm

theorem back_sorted (hb : Back z le es ns ns' ws ws' rs rs') :
    (ns'.Pairwise fun a b => KeyBefore (a.id, a.version) (b.id, b.version)) ∧
    (ws'.Pairwise fun a b => KeyBefore (a.id, a.version) (b.id, b.version)) ∧
    (rs'.Pairwise fun a b => KeyBefore (a.id, a.version) (b.id, b.version)) :=
  ⟨sorted_keys (key := fun a : Node => (a.id, a.version)) (forall₂_keys hb.nodes.2.2 fun a b h => by rw [h.rest]) hb.nodes.2.1,
   sorted_keys (key := fun a : Way => (a.id, a.version)) (forall₂_keys hb.ways.2.2 fun a b h => by rw [h.rest]) hb.ways.2.1,
   sorted_keys (key := fun a : Relation => (a.id, a.version)) (forall₂_keys hb.relations.2.2 fun a b h => by rw [h.rest]) hb.relations.2.1⟩

theorem back_storable (hb : Back z le es ns ns' ws ws' rs rs') (hs : Storable es) : Storable (withSentinels ns' ws' rs') := by
  obtain ⟨s1, s2, s3⟩ := back_sorted hb
  refine ⟨?_, ?_, ?_, ?_, ?_, ?_, ?_⟩
  · rw [nodesOf_withSentinels]; exact keyBefore_ne (id := Node.id) (ver := Node.version) s1
  · rw [waysOf_withSentinels]; exact keyBefore_ne (id := Way.id) (ver := Way.version) s2
  · rw [relationsOf_withSentinels]; exact keyBefore_ne (id := Relation.id) (ver := Relation.version) s3
  · rw [nodesOf_withSentinels]
    intro n hn
    obtain ⟨a, ha, h⟩ := forall₂_right hb.nodes.2.2 hn
    have hc := hs.coordinates a (hb.nodes.1.subset ha)
    exact ⟨by exact_mod_cast (quantised_within (b := 90) (by norm_num) h.lat (by exact_mod_cast hc.1)).1,
      by exact_mod_cast (quantised_within (b := 180) (by norm_num) h.lon (by exact_mod_cast hc.2)).1⟩
  · intro p hp
    exact hs.names _ (lastValue_mem (back_names hb hp))
  · rw [waysOf_withSentinels]
    intro w hw
    obtain ⟨a, ha, h⟩ := forall₂_right hb.ways.2.2 hw
    have e : w.refs = a.refs := by rw [h.rest]
    rw [e]; exact hs.refs a (hb.ways.1.subset ha)
  · rw [relationsOf_withSentinels]
    intro r hr
    obtain ⟨a, ha, h⟩ := forall₂_right hb.relations.2.2 hr
    rw [h.members.1.length_eq]; exact hs.members a (hb.relations.1.subset ha)

theorem back_exact (hb : Back z le es ns ns' ws ws' rs rs') (hs : Storable es) :
    ∀ e ∈ withSentinels ns' ws' rs', Exact e := by
  intro e he
  rcases mem_parts he with ⟨n, hn, rfl⟩ | ⟨n, hn, rfl⟩ | ⟨n, hn, rfl⟩ | rfl
  · obtain ⟨a, ha, h⟩ := forall₂_right hb.nodes.2.2 hn
    have hc := hs.coordinates a (hb.nodes.1.subset ha)
    exact ⟨(quantised_within (b := 90) (by norm_num) h.lat (by exact_mod_cast hc.1)).2,
      (quantised_within (b := 180) (by norm_num) h.lon (by exact_mod_cast hc.2)).2, floored_whole h.time⟩
  · obtain ⟨a, -, h⟩ := forall₂_right hb.ways.2.2 hn
    exact floored_whole h.time
  · obtain ⟨a, -, h⟩ := forall₂_right hb.relations.2.2 hn
    exact floored_whole h.time
  · trivial

theorem back_times (hb : Back z le es ns ns' ws ws' rs rs') (ht : ∀ e ∈ es, TimeOk e) :
    ∀ e ∈ withSentinels ns' ws' rs', TimeOk e := by
  intro e he
  rcases mem_parts he with ⟨n, hn, rfl⟩ | ⟨n, hn, rfl⟩ | ⟨n, hn, rfl⟩ | rfl
  · obtain ⟨a, ha, h⟩ := forall₂_right hb.nodes.2.2 hn
    have := ht _ (mem_nodesOf (hb.nodes.1.subset ha))
    change inRange (n.timestamp.toInt / 1000) = true
    rw [floored_range h.time]; exact this
  · obtain ⟨a, ha, h⟩ := forall₂_right hb.ways.2.2 hn
    have := ht _ (mem_waysOf (hb.ways.1.subset ha))
    change inRange (n.timestamp.toInt / 1000) = true
    rw [floored_range h.time]; exact this
  · obtain ⟨a, ha, h⟩ := forall₂_right hb.relations.2.2 hn
    have := ht _ (mem_relationsOf (hb.relations.1.subset ha))
    change inRange (n.timestamp.toInt / 1000) = true
    rw [floored_range h.time]; exact this
  · trivial

theorem back_tags (hz : Faithful z) (anti : ∀ a b, le a b → le b a → a = b) (hb : Back z le es ns ns' ws ws' rs rs')
    (hk : ∀ e ∈ es, ((tagsOf e).map Tag.k).Nodup) :
    ∀ e ∈ withSentinels ns' ws' rs', (tagsOf e).Pairwise fun a b => TagLe z le a b ∧ ¬ TagLe z le b a := by
  intro e he
  rcases mem_parts he with ⟨n, hn, rfl⟩ | ⟨n, hn, rfl⟩ | ⟨n, hn, rfl⟩ | rfl
  · obtain ⟨a, ha, h⟩ := forall₂_right hb.nodes.2.2 hn
    exact tags_strict hz anti h.tags (hk _ (mem_nodesOf (hb.nodes.1.subset ha)))
  · obtain ⟨a, ha, h⟩ := forall₂_right hb.ways.2.2 hn
    exact tags_strict hz anti h.tags (hk _ (mem_waysOf (hb.ways.1.subset ha)))
  · obtain ⟨a, ha, h⟩ := forall₂_right hb.relations.2.2 hn
    exact tags_strict hz anti h.tags (hk _ (mem_relationsOf (hb.relations.1.subset ha)))
  · exact .nil

end

/-! ### C92 -/

/-- C92: what a dump gives back can be written to a dump again (at any representable times of day), and every
sorted copy of that second dump gives back exactly what the first gave: same elements, same order, every field. -/
theorem C92_twice (z : Codec) (hz : Faithful z) (le : Text → Text → Prop) (anti : ∀ a b, le a b → le b a → a = b)
    (uc cc : Int64 → Int64) (es : List Element) (files sorted : Table → Text) (hd : Dump z uc cc es files)
    (hs : Storable es) (hk : ∀ e ∈ es, ((tagsOf e).map Tag.k).Nodup) (hsort : SortedCopy le files sorted)
    (it it' : ElementIterator) (out : List Element) (hnew : ElementIterator.new dumpTables sorted = .ok it)
    (hit : Iterates (ElementIterator.next z) it out it') :
    Storable out ∧
    (∀ uc₂ cc₂ : Int64 → Int64, (∀ k, inRange ((uc₂ k).toInt / 1000000) = true) →
      (∀ k, inRange ((cc₂ k).toInt / 1000000) = true) → ∃ files₂, Dump z uc₂ cc₂ out files₂) ∧
    ∀ uc₂ cc₂ files₂ sorted₂, Dump z uc₂ cc₂ out files₂ → SortedCopy le files₂ sorted₂ →
      ∃ jt jt', ElementIterator.new dumpTables sorted₂ = .ok jt ∧ Iterates (ElementIterator.next z) jt out jt' ∧
        ElementIterator.next z jt' = .ok (none, jt') := by
  obtain ⟨kt, kt', ns, ns', ws, ws', rs, rs', h1, h2, _, hb⟩ := C53_round_trip z hz le uc cc es files sorted hd hs hsort
  rw [hnew] at h1
  cases h1
  obtain ⟨rfl, -⟩ := Iterates.det hit h2
  have hT : ∀ e ∈ es, TimeOk e := by
    obtain ⟨w, w', ha, _⟩ := hd
    exact writeAll_times ha
  have hst := back_storable hb hs
  refine ⟨hst, fun uc₂ cc₂ hu hc => dump_total z uc₂ cc₂ _ (back_times hb hT) hu hc, ?_⟩
  intro uc₂ cc₂ files₂ sorted₂ hd₂ hsort₂
  obtain ⟨s1, s2, s3⟩ := back_sorted hb
  obtain ⟨jt, jt', ns₂, ws₂, rs₂, g1, g2, g3, p1, q1, p2, q2, p3, q3⟩ := C53_exact z hz le uc₂ cc₂ _ files₂ sorted₂ hd₂ hst hsort₂
    (back_exact hb hs) (back_consistent hb) (back_tags hz anti hb hk) (by
      rw [relationsOf_withSentinels]
      intro r hr
      obtain ⟨a, -, h⟩ := forall₂_right hb.relations.2.2 hr
      exact h.members.2)
  rw [nodesOf_withSentinels] at p1
  rw [waysOf_withSentinels] at p2
  rw [relationsOf_withSentinels] at p3
  have e1 := sorted_unique (key := fun a : Node => (a.id, a.version)) p1 s1 q1
  have e2 := sorted_unique (key := fun a : Way => (a.id, a.version)) p2 s2 q2
  have e3 := sorted_unique (key := fun a : Relation => (a.id, a.version)) p3 s3 q3
  subst e1 e2 e3
  exact ⟨jt, jt', g1, g2, g3⟩

namespace RoundTripExample

/-- Node between two steps of the grid and between two seconds, tags against the order of keys. -/
def rough : Node := ⟨3, 1, ⟨1 / 3, -1 / 7⟩, 1234567, 5, 8, "Bob", true, [⟨"z", "1"⟩, ⟨"a", "2"⟩]⟩

/-- Elements that do not come back as they were written: rounded coordinates, a cut time, reordered tags and members. -/
def rougher : List Element := [.relation r2, .node rough, .node n1]

theorem rougher_storable : Storable rougher where
  nodes := by simp [Spec.nodesOf, rougher, rough, n1]
  ways := by simp [Spec.waysOf, rougher]
  relations := by simp [Spec.relationsOf, rougher]
  coordinates := by
    intro n hn
    have : n = rough ∨ n = n1 := by simpa [Spec.nodesOf, rougher] using hn
    rcases this with rfl | rfl <;> exact ⟨by decide +kernel, by decide +kernel⟩
  names := by
    have e : userNames rougher = [(7, "Ada"), (8, "Bob"), (7, "Ada")] := rfl
    rw [e]
    decide
  refs := by simp [Spec.waysOf, rougher]
  members := by simp [Spec.relationsOf, rougher, r2]

/-- `C92_twice` on the example. -/
example : ∃ files sorted it it' out files₂ sorted₂ jt jt', Dump codec (fun _ => 0) (fun _ => 0) rougher files ∧
    SortedCopy le files sorted ∧ ElementIterator.new dumpTables sorted = .ok it ∧
    Iterates (ElementIterator.next codec) it out it' ∧ Dump codec (fun _ => 5000000) (fun _ => 0) out files₂ ∧
    SortedCopy le files₂ sorted₂ ∧ ElementIterator.new dumpTables sorted₂ = .ok jt ∧
    Iterates (ElementIterator.next codec) jt out jt' := by
  have tot := fun a b : Text => List.le_total a b
  obtain ⟨files, hd⟩ := dump_total codec (fun _ => 0) (fun _ => 0) rougher (by
    intro e he
    simp only [rougher, List.mem_cons, List.not_mem_nil, or_false] at he
    rcases he with rfl | rfl | rfl <;> (unfold TimeOk; decide +kernel)) (fun _ => by decide +kernel) (fun _ => by decide +kernel)
  obtain ⟨sorted, hs⟩ := C53_sortable codec faithful le tot (fun a b c => List.le_trans) _ _ _ files hd rougher_storable.names
  obtain ⟨it, it', ns, ns', ws, ws', rs, rs', h1, h2, _, _⟩ :=
    C53_round_trip codec faithful le _ _ _ files sorted hd rougher_storable hs
  obtain ⟨hst, hex, hall⟩ := C92_twice codec faithful le (fun a b h h' => List.le_antisymm h h') _ _ _ files sorted hd
    rougher_storable (by
      intro e he
      simp only [rougher, List.mem_cons, List.not_mem_nil, or_false] at he
      rcases he with rfl | rfl | rfl <;> decide +kernel) hs it it' _ h1 h2
  obtain ⟨files₂, hd₂⟩ := hex (fun _ => 5000000) (fun _ => 0) (fun _ => by decide +kernel) (fun _ => by decide +kernel)
  obtain ⟨sorted₂, hs₂⟩ := C53_sortable codec faithful le tot (fun a b c => List.le_trans) _ _ _ files₂ hd₂ hst.names
  obtain ⟨jt, jt', g1, g2, _⟩ := hall _ _ files₂ sorted₂ hd₂ hs₂
  exact ⟨files, sorted, it, it', _, files₂, sorted₂, jt, jt', hd, hs, h1, h2, hd₂, hs₂, g1, g2⟩

end RoundTripExample

end OsmIo
