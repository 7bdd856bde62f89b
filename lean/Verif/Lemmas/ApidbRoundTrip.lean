import Verif.Lemmas.ApidbRecords
/-! Joining the sorted tables of a dump. -/
namespace OsmIo.Apidb
open OsmIo.Text OsmIo.Sql OsmIo.Spec

/-! ### Rows -/

theorem good_hist {z : Codec} (hz : Faithful z) {t : Table} {e : Element} {r : List Text} (h : r ∈ histRows z t e) :
    Good r :=
  ⟨histRows_ok (fun _ h => h.tab) hz.tab t e r h, histRows_ok (fun _ h => h.newline) hz.newline t e r h⟩

theorem rowOk_changeset {x : Char} (hx : ∀ t, Printable t → x ∉ t) (id uid t : Int64) :
    RowOk x (Spec.changesetRow id uid (clock t)) := by
  have pn := fun n => hx _ (printable_num n)
  have c6 : x ∉ clock t := hx _ (printable_clock t)
  refine rowOk_num hx ?_
  simp only [List.mem_cons, List.not_mem_nil, or_false, forall_eq_or_imp, forall_eq]
  exact ⟨pn _, c6, pn _, pn _, pn _, pn _, c6, pn _⟩

theorem rowOk_user {x : Char} (hx : ∀ t, Printable t → x ∉ t) (id t : Int64) {name : String} (hname : x ∉ name.toList) :
    RowOk x (Spec.userRow id name (clock t)) := by
  have pn := fun n => hx _ (printable_num n)
  have pf := fun b => hx _ (printable_flag b)
  have p0 := hx _ printable_null
  refine ⟨⟨'o', "sm-admin-user-".toList ++ num id.toInt ++ "@example.com".toList, _, rfl, by decide⟩, ?_⟩
  have c1 : x ∉ "osm-admin-user-".toList ++ num id.toInt ++ "@example.com".toList :=
    hx _ (.append (.append (by unfold Printable; decide) (printable_num _)) (by unfold Printable; decide))
  have c2 : x ∉ "00000000000000000000000000000000".toList := hx _ (by unfold Printable; decide)
  have c3 : x ∉ "00000000".toList := hx _ (by unfold Printable; decide)
  have c4 : x ∉ "pending".toList := hx _ (by unfold Printable; decide)
  have c5 : x ∉ "markdown".toList := hx _ (by unfold Printable; decide)
  have c6 : x ∉ clock t := hx _ (printable_clock t)
  unfold Spec.userRow
  simp only [List.mem_cons, List.not_mem_nil, or_false, forall_eq_or_imp, forall_eq]
  exact ⟨c1, pn _, c2, c6, hname, pf _, hname, pn _, pn _, pn _, c3, pf _, p0, p0, p0, c4, p0, pf _, p0, p0, pf _, c5,
    pn _, pn _, pn _, pf _, p0, p0, p0⟩

theorem good_changeset (id uid t : Int64) : Good (Spec.changesetRow id uid (clock t)) :=
  ⟨rowOk_changeset (fun _ h => h.tab) .., rowOk_changeset (fun _ h => h.newline) ..⟩

theorem good_user (id t : Int64) {name : String} (h : '\t' ∉ name.toList ∧ '\n' ∉ name.toList) :
    Good (Spec.userRow id name (clock t)) :=
  ⟨rowOk_user (fun _ h => h.tab) _ _ h.1, rowOk_user (fun _ h => h.newline) _ _ h.2⟩

/-! ### Keys -/

theorem lineLe_int {le : Text → Text → Prop} {key : List (Nat × FieldType)} {i : Nat} {a b : Text} {m n : Int}
    (ha : column a i = num m) (hb : column b i = num n) :
    lineLe le ((i, .integer) :: key) a b ↔ m < n ∨ (m = n ∧ lineLe le key a b) := by
  simp only [lineLe, ha, hb, num, parseInt_showInt, Option.some.injEq]
  constructor
  · rintro (⟨_, _, rfl, rfl, h⟩ | h)
    · exact .inl h
    · exact .inr h
  · rintro (h | h)
    · exact .inl ⟨_, _, rfl, rfl, h⟩
    · exact .inr h

theorem lineLe_string {le : Text → Text → Prop} {key : List (Nat × FieldType)} {i : Nat} {a b x y : Text}
    (ha : column a i = x) (hb : column b i = y) :
    lineLe le ((i, .string) :: key) a b ↔ (le x y ∧ ¬ le y x) ∨ (le x y ∧ le y x ∧ lineLe le key a b) := by
  simp only [lineLe, ha, hb]

/-- Order of two (id, version) pairs and, when they are equal, of the rest. -/
theorem lineLe_keys {le : Text → Text → Prop} {key : List (Nat × FieldType)} {i j : Nat} {a b : Text}
    {id id' : Int64} {v v' : Int32}
    (h : lineLe le ((i, .integer) :: (j, .integer) :: key) a b)
    (ha : column a i = num id.toInt) (hb : column b i = num id'.toInt)
    (ha' : column a j = num v.toInt) (hb' : column b j = num v'.toInt) :
    KeyLe (id, v.toInt64) (id', v'.toInt64) ∧ ((id = id' ∧ v = v') → lineLe le key a b) := by
  rw [lineLe_int ha hb, lineLe_int ha' hb'] at h
  constructor
  · rcases h with h | ⟨h, h2 | ⟨h', _⟩⟩
    · exact .inl (Int64.lt_iff_toInt_lt.2 h)
    · exact .inr ⟨Int64.toInt_inj.1 h, Int64.le_iff_toInt_le.2 (by simp only [Int32.toInt_toInt64]; omega)⟩
    · exact .inr ⟨Int64.toInt_inj.1 h, Int64.le_iff_toInt_le.2 (by simp only [Int32.toInt_toInt64]; omega)⟩
  · rintro ⟨rfl, rfl⟩
    rcases h with h | ⟨h, h | ⟨h', h2⟩⟩
    · omega
    · omega
    · exact h2

theorem keyLt_of_le {id id' : Int64} {v v' : Int32} (h : KeyLe (id, v.toInt64) (id', v'.toInt64))
    (hne : ¬ (id = id' ∧ v = v')) : KeyLt (id, v.toInt64) (id', v'.toInt64) := by
  rcases h with h | ⟨h, h2⟩
  · exact .inl h
  · refine .inr ⟨h, ?_⟩
    rw [Int64.lt_iff_toInt_lt]
    rw [Int64.le_iff_toInt_le] at h2
    simp only [Int32.toInt_toInt64] at h2 ⊢
    have : v.toInt ≠ v'.toInt := fun h3 => hne ⟨h, Int32.toInt_inj.1 h3⟩
    omega

theorem before_of_le {id id' : Int64} {v v' : Int32} (h : KeyLe (id, v.toInt64) (id', v'.toInt64))
    (hne : ¬ (id = id' ∧ v = v')) : KeyBefore (id, v) (id', v') := by
  rcases keyLt_of_le h hne with h | ⟨h, h2⟩
  · exact .inl h
  · refine .inr ⟨h, ?_⟩
    rw [Int64.lt_iff_toInt_lt] at h2
    simp only [Int32.toInt_toInt64] at h2
    exact Int32.lt_iff_toInt_lt.2 h2

theorem toInt64_inj {v v' : Int32} : v.toInt64 = v'.toInt64 ↔ v = v' := by
  constructor
  · intro h
    have := congrArg Int64.toInt h
    simp only [Int32.toInt_toInt64] at this
    exact Int32.toInt_inj.1 this
  · rintro rfl; rfl

/-! ### Parts -/

/-- The parts of an object among the parts of all objects. -/
theorem filter_parts {α β κ : Type} [DecidableEq κ] (key : α → κ) (parts : α → List β) (l : List α)
    (hk : l.Pairwise fun a b => key a ≠ key b) (o : α) (ho : o ∈ l) :
    (l.flatMap fun a => (parts a).map (Prod.mk a)).filter (fun p => key p.1 = key o) = (parts o).map (Prod.mk o) := by
  have hself : ∀ a : α, ∀ ps : List β, (ps.map (Prod.mk a)).filter (fun p => key p.1 = key o) =
      if key a = key o then ps.map (Prod.mk a) else [] := by
    intro a ps
    split
    · rename_i h
      rw [List.filter_eq_self]
      intro p hp
      obtain ⟨b, _, rfl⟩ := List.mem_map.1 hp
      simpa using h
    · rename_i h
      rw [List.filter_eq_nil_iff]
      intro p hp
      obtain ⟨b, _, rfl⟩ := List.mem_map.1 hp
      simpa using h
  induction l with
  | nil => simp at ho
  | cons a l ih =>
    rw [List.pairwise_cons] at hk
    rw [List.flatMap_cons, List.filter_append, hself]
    rcases List.mem_cons.1 ho with rfl | ho'
    · rw [if_pos rfl]
      have : (l.flatMap fun a => (parts a).map (Prod.mk a)).filter (fun p => key p.1 = key o) = [] := by
        rw [List.filter_eq_nil_iff]
        intro p hp
        obtain ⟨b, hb, hp⟩ := List.mem_flatMap.1 hp
        obtain ⟨c, _, rfl⟩ := List.mem_map.1 hp
        simpa using (hk.1 b hb).symm
      rw [this, List.append_nil]
    · rw [if_neg (hk.1 o ho'), List.nil_append, ih hk.2 ho']

theorem perm_parts {α β κ : Type} [DecidableEq κ] (key : α → κ) (parts : α → List β) {l : List α}
    {ps : List (α × β)} (hp : ps.Perm (l.flatMap fun a => (parts a).map (Prod.mk a)))
    (hk : l.Pairwise fun a b => key a ≠ key b) {o : α} (ho : o ∈ l) :
    ∃ qs : List β, qs.Perm (parts o) ∧ ps.filter (fun p => key p.1 = key o) = qs.map (Prod.mk o) := by
  have := hp.filter (fun p => key p.1 = key o)
  rw [filter_parts key parts l hk o ho] at this
  exact perm_map_inv this

/-- A sorted list of numbered items with distinct numbers is the list in its original order. -/
theorem eq_of_numbered {β : Type} {l : List β} {ps : List (β × Nat)} (R : β × Nat → β × Nat → Prop)
    (hp : ps.Perm (l.zipIdx 1)) (hs : ps.Pairwise R) (hl : (l.zipIdx 1).Pairwise R)
    (ha : ∀ p q, R p q → R q p → p.2 = q.2) : ps = l.zipIdx 1 := by
  refine List.Perm.eq_of_pairwise ?_ hs hl hp
  intro p q hpm hqm h1 h2
  have e := ha p q h1 h2
  have m1 := hp.subset hpm
  obtain ⟨a, i⟩ := p
  obtain ⟨b, j⟩ := q
  simp only at e
  subst e
  rw [List.mk_mem_zipIdx_iff_le_and_getElem?_sub] at m1 hqm
  rw [m1.2] at hqm
  simpa using hqm.2

theorem zipIdx_map_fst {β : Type} (l : List β) (k : Nat) : (l.zipIdx k).map Prod.fst = l := by
  induction l generalizing k with
  | nil => rfl
  | cons a l ih => simp [ih]

theorem zipIdx_pairwise {β : Type} (l : List β) (k : Nat) : (l.zipIdx k).Pairwise fun p q => p.2 < q.2 := by
  induction l generalizing k with
  | nil => simp
  | cons a l ih =>
    rw [List.zipIdx_cons, List.pairwise_cons]
    refine ⟨?_, ih _⟩
    rintro ⟨b, j⟩ hm
    rw [List.mk_mem_zipIdx_iff_le_and_getElem?_sub] at hm
    simp only
    omega

theorem zipIdx_lt {β : Type} {l : List β} {p : β × Nat} (h : p ∈ l.zipIdx 1) : p.2 < l.length + 1 := by
  obtain ⟨b, j⟩ := p
  rw [List.mk_mem_zipIdx_iff_le_and_getElem?_sub] at h
  obtain ⟨h1, h2⟩ := h
  have := (List.getElem?_eq_some_iff.1 h2).1
  simp only
  omega

/-! ### Users and changesets -/

theorem lastValue_mem {β : Type} {m : List (Int64 × β)} {k : Int64} {v : β} (h : lastValue m k = some v) : (k, v) ∈ m := by
  unfold lastValue at h
  rw [Option.map_eq_some_iff] at h
  obtain ⟨⟨k', v'⟩, hf, rfl⟩ := h
  have h1 := List.mem_reverse.1 (List.mem_of_find?_eq_some hf)
  have h2 := List.find?_some hf
  simp at h2
  subst h2
  exact h1

theorem lastValue_isSome {β : Type} {m : List (Int64 × β)} {k : Int64} {v : β} (h : (k, v) ∈ m) :
    ∃ w, lastValue m k = some w := by
  unfold lastValue
  cases hf : m.reverse.find? (fun p => p.1 = k) with
  | some p => exact ⟨p.2, rfl⟩
  | none =>
    rw [List.find?_eq_none] at hf
    have := hf (k, v) (List.mem_reverse.2 h)
    simp at this

theorem lastValue_unique {β : Type} {m : List (Int64 × β)} (hm : m.Pairwise fun a b => a.1 ≠ b.1) (k : Int64) (v : β) :
    lastValue m k = some v ↔ (k, v) ∈ m := by
  refine ⟨lastValue_mem, fun h => ?_⟩
  obtain ⟨w, hw⟩ := lastValue_isSome h
  have := lastValue_mem hw
  rw [hw]
  by_contra hne
  have hne' : (k, w) ≠ (k, v) := fun e => hne (by simpa using e)
  have : Std.Symm fun a b : Int64 × β => a.1 ≠ b.1 := ⟨fun _ _ h => h.symm⟩
  exact (hm.forall ‹_› h hne') rfl

theorem lastValue_perm {β : Type} {l m m' : List (Int64 × β)} (hl : LastValues l m) (hp : m'.Perm m) (k : Int64) :
    lastValue m' k = lastValue l k := by
  have hd : m.Pairwise fun a b => a.1 ≠ b.1 :=
    hl.1.imp fun {a b} h e => by rw [e] at h; exact Int64.lt_irrefl h
  have hd' : m'.Pairwise fun a b => a.1 ≠ b.1 := (hp.pairwise_iff (fun {a b} (h : a.1 ≠ b.1) => h.symm)).2 hd
  apply Option.ext
  intro v
  rw [lastValue_unique hd', hp.mem_iff, hl.2]

/-- A written element has an owner. -/
theorem owner_written {es : List Element} {changeset : Int64} {uid : Int32}
    (h1 : (changeset, uid.toInt64) ∈ changesetUsers es) :
    ∃ u name, lastValue (changesetUsers es) changeset = some u ∧ lastValue (userNames es) u = some name := by
  obtain ⟨u, hu⟩ := lastValue_isSome h1
  have hm := lastValue_mem hu
  have : ∃ name, (u, name) ∈ userNames es := by
    unfold changesetUsers at hm
    obtain ⟨e, he, h⟩ := List.mem_filterMap.1 hm
    cases e with
    | node n => simp at h; exact ⟨n.user, List.mem_filterMap.2 ⟨_, he, by simp [h]⟩⟩
    | way n => simp at h; exact ⟨n.user, List.mem_filterMap.2 ⟨_, he, by simp [h]⟩⟩
    | relation n => simp at h; exact ⟨n.user, List.mem_filterMap.2 ⟨_, he, by simp [h]⟩⟩
    | sentinel => simp at h
  obtain ⟨name, hn⟩ := this
  obtain ⟨w, hw⟩ := lastValue_isSome hn
  exact ⟨u, w, hu, hw⟩

/-! ### Times -/

theorem writeAll_times {z : Codec} {w w' : Writer} {es : List Element} (h : w.writeAll z es = .ok w') :
    ∀ e ∈ es, TimeOk e := by
  induction es generalizing w with
  | nil => simp
  | cons e es ih =>
    simp only [Writer.writeAll] at h
    obtain ⟨w1, h1, h2⟩ := Out.bind_eq_ok.1 h
    intro x hx
    rcases List.mem_cons.1 hx with rfl | hx
    · have ht : ∀ {t : Int64} {s : Text}, toSqlTimeMillis t = .ok s → inRange (t.toInt / 1000) = true := by
        intro t s hs
        unfold toSqlTimeMillis at hs
        simp only at hs
        split at hs
        · assumption
        · cases hs
      cases x with
      | node n =>
        simp only [Writer.writeElement, Writer.writeNode] at h1
        obtain ⟨s, hs, _⟩ := Out.bind_eq_ok.1 h1
        exact ht hs
      | way n =>
        simp only [Writer.writeElement, Writer.writeWay] at h1
        obtain ⟨s, hs, _⟩ := Out.bind_eq_ok.1 h1
        exact ht hs
      | relation n =>
        simp only [Writer.writeElement, Writer.writeRelation] at h1
        obtain ⟨s, hs, _⟩ := Out.bind_eq_ok.1 h1
        exact ht hs
      | sentinel => trivial
    · exact ih h2 x hx

theorem toSqlTimeMicros_range {t : Int64} {s : Text} (hs : toSqlTimeMicros t = .ok s) :
    inRange (t.toInt / 1000000) = true := by
  unfold toSqlTimeMicros at hs
  simp only at hs
  split at hs
  · assumption
  · cases hs

theorem writeUsers_times {clock : Int64 → Int64} {us : List (Int64 × String)} {w w' : Writer}
    (h : w.writeUsers clock us = .ok w') : ∀ p ∈ us, inRange ((clock p.1).toInt / 1000000) = true := by
  induction us generalizing w with
  | nil => simp
  | cons p us ih =>
    simp only [Writer.writeUsers] at h
    obtain ⟨s, hs, h2⟩ := Out.bind_eq_ok.1 h
    intro q hq
    rcases List.mem_cons.1 hq with rfl | hq
    · exact toSqlTimeMicros_range hs
    · exact ih h2 q hq

theorem writeChangesets_times {clock : Int64 → Int64} {us : List (Int64 × Int64)} {w w' : Writer}
    (h : w.writeChangesets clock us = .ok w') : ∀ p ∈ us, inRange ((clock p.1).toInt / 1000000) = true := by
  induction us generalizing w with
  | nil => simp
  | cons p us ih =>
    simp only [Writer.writeChangesets] at h
    obtain ⟨s, hs, h2⟩ := Out.bind_eq_ok.1 h
    intro q hq
    rcases List.mem_cons.1 hq with rfl | hq
    · exact toSqlTimeMicros_range hs
    · exact ih h2 q hq

end OsmIo.Apidb
