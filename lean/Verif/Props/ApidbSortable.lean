import Verif.Props.ApidbRoundTrip
import Mathlib.Data.List.Sort
import Verif.Props.Block
/-!
# The tables of a dump can be sorted (hypotheses of C46, C53)
-/
namespace OsmIo
open Text Sql Apidb Spec

/-- As `lineLe`, with 0 for a column that is not a number. -/
def lineLeD (le : Text → Text → Prop) : List (Nat × FieldType) → Text → Text → Prop
  | [], _, _ => True
  | (i, .integer) :: key, a, b =>
    (parseInt (column a i)).getD 0 < (parseInt (column b i)).getD 0 ∨
    ((parseInt (column a i)).getD 0 = (parseInt (column b i)).getD 0 ∧ lineLeD le key a b)
  | (i, .string) :: key, a, b =>
    (le (column a i) (column b i) ∧ ¬ le (column b i) (column a i)) ∨
    (le (column a i) (column b i) ∧ le (column b i) (column a i) ∧ lineLeD le key a b)

theorem lineLeD_total {le : Text → Text → Prop} (ht : ∀ a b, le a b ∨ le b a) (key : List (Nat × FieldType))
    (a b : Text) : lineLeD le key a b ∨ lineLeD le key b a := by
  induction key with
  | nil => exact .inl trivial
  | cons k key ih =>
    obtain ⟨i, t⟩ := k
    cases t with
    | integer =>
      simp only [lineLeD]
      rcases Int.lt_trichotomy ((parseInt (column a i)).getD 0) ((parseInt (column b i)).getD 0) with h | h | h
      · exact .inl (.inl h)
      · rcases ih with ih | ih
        · exact .inl (.inr ⟨h, ih⟩)
        · exact .inr (.inr ⟨h.symm, ih⟩)
      · exact .inr (.inl h)
    | string =>
      simp only [lineLeD]
      by_cases h1 : le (column a i) (column b i) <;> by_cases h2 : le (column b i) (column a i)
      · rcases ih with ih | ih
        · exact .inl (.inr ⟨h1, h2, ih⟩)
        · exact .inr (.inr ⟨h2, h1, ih⟩)
      · exact .inl (.inl ⟨h1, h2⟩)
      · exact .inr (.inl ⟨h2, h1⟩)
      · rcases ht (column a i) (column b i) with h | h
        · exact absurd h h1
        · exact absurd h h2

theorem lineLeD_trans {le : Text → Text → Prop} (ht : ∀ a b c, le a b → le b c → le a c)
    (key : List (Nat × FieldType)) (a b c : Text) (h1 : lineLeD le key a b) (h2 : lineLeD le key b c) :
    lineLeD le key a c := by
  induction key with
  | nil => trivial
  | cons k key ih =>
    obtain ⟨i, t⟩ := k
    cases t with
    | integer =>
      simp only [lineLeD] at h1 h2 ⊢
      rcases h1 with h1 | ⟨h1, h1'⟩ <;> rcases h2 with h2 | ⟨h2, h2'⟩
      · exact .inl (by omega)
      · exact .inl (by omega)
      · exact .inl (by omega)
      · exact .inr ⟨by omega, ih h1' h2'⟩
    | string =>
      simp only [lineLeD] at h1 h2 ⊢
      rcases h1 with ⟨h1, n1⟩ | ⟨h1, m1, h1'⟩ <;> rcases h2 with ⟨h2, n2⟩ | ⟨h2, m2, h2'⟩
      · exact .inl ⟨ht _ _ _ h1 h2, fun h => n1 (ht _ _ _ h2 h)⟩
      · exact .inl ⟨ht _ _ _ h1 h2, fun h => n1 (ht _ _ _ h2 h)⟩
      · exact .inl ⟨ht _ _ _ h1 h2, fun h => n2 (ht _ _ _ h h1)⟩
      · exact .inr ⟨ht _ _ _ h1 h2, ht _ _ _ m2 m1, ih h1' h2'⟩

/-- The key columns of integers hold integers. -/
def KeyOk (key : List (Nat × FieldType)) (cols : List Text) : Prop :=
  ∀ i, (i, FieldType.integer) ∈ key → ∃ n : Int, cols[i - 1]? = some (num n)

theorem lineLe_of_D {le : Text → Text → Prop} {key : List (Nat × FieldType)} {r s : List Text} (gr : Good r)
    (gs : Good s) (kr : KeyOk key r) (ks : KeyOk key s) (h : lineLeD le key (tabbed r) (tabbed s)) :
    lineLe le key (tabbed r) (tabbed s) := by
  induction key with
  | nil => trivial
  | cons k key ih =>
    have ih := ih (fun i hi => kr i (List.mem_cons_of_mem _ hi)) (fun i hi => ks i (List.mem_cons_of_mem _ hi))
    obtain ⟨i, t⟩ := k
    cases t with
    | integer =>
      obtain ⟨m, hm⟩ := kr i (by simp)
      obtain ⟨n, hn⟩ := ks i (by simp)
      have em : column (tabbed r) i = num m := by rw [gr.column, hm]; rfl
      have en : column (tabbed s) i = num n := by rw [gs.column, hn]; rfl
      rw [lineLe_int em en]
      simp only [lineLeD, em, en, num, parseInt_showInt, Option.getD_some] at h
      rcases h with h | ⟨h, h'⟩
      · exact .inl h
      · exact .inr ⟨h, ih h'⟩
    | string =>
      simp only [lineLeD] at h
      simp only [lineLe]
      rcases h with h | ⟨h, h', h''⟩
      · exact .inl h
      · exact .inr ⟨h, h', ih h''⟩

theorem sorted_exists {le : Text → Text → Prop} (h1 : ∀ a b, le a b ∨ le b a) (h2 : ∀ a b c, le a b → le b c → le a c)
    (key : List (Nat × FieldType)) (rows : List (List Text)) (hg : ∀ r ∈ rows, Good r) (hk : ∀ r ∈ rows, KeyOk key r) :
    ∃ sorted, Sorted le key (tableText rows ++ endMarker) sorted := by
  classical
  let b : List Text → List Text → Bool := fun r s => decide (lineLeD le key (tabbed r) (tabbed s))
  have ht : ∀ x y z, b x y = true → b y z = true → b x z = true := by
    intro x y z hx hy
    simp only [b, decide_eq_true_eq] at hx hy ⊢
    exact lineLeD_trans h2 key _ _ _ hx hy
  have hto : ∀ x y, (b x y || b y x) = true := by
    intro x y
    simp only [b, Bool.or_eq_true, decide_eq_true_eq]
    exact lineLeD_total h1 key _ _
  have hp := List.mergeSort_perm rows b
  have ho := List.pairwise_mergeSort ht hto rows
  generalize rows.mergeSort b = ms at hp ho
  have hgm : ∀ r ∈ ms, Good r := fun r hr => hg r (hp.subset hr)
  have hline : ∀ l ∈ ms.map tabbed, '\n' ∉ l := by
    intro l hl
    obtain ⟨r, hr, rfl⟩ := List.mem_map.1 hl
    exact newline_not_mem_tabbed (hgm r hr).2.2
  refine ⟨(ms.map tabbed).flatMap (fun l => l ++ ['\n']), ?_, ?_⟩
  · rw [lines_of_lines hline]
    have hl : lines (tableText rows ++ endMarker) = rows.map tabbed ++ [['\\', '.']] := by
      rw [lines_tableText]
      · congr 1
        apply List.map_congr_left
        intro a _
        exact (tabbed_eq _).symm
      · intro r hr col hc
        exact (hg r hr).2.2 col hc
    rw [hl, List.filter_append]
    have h2 : [(['\\', '.'] : Text)].filter (fun l => l ≠ [] ∧ l ≠ ['\\', '.']) = [] := by decide
    rw [h2, List.append_nil, List.filter_eq_self.2]
    · exact hp.map tabbed
    · intro x hx
      obtain ⟨a, ha, rfl⟩ := List.mem_map.1 hx
      have := stopLine_false.1 (hg a ha).stop
      simp only [decide_eq_true_eq]
      refine ⟨this.1, ?_⟩
      intro hh
      rw [hh] at this
      exact this.2 (List.prefix_refl _)
  · rw [lines_of_lines hline, List.pairwise_map]
    refine ho.imp_of_mem fun {r s} hr hs h => ?_
    simp only [b, decide_eq_true_eq] at h
    exact lineLe_of_D (hgm r hr) (hgm s hs) (hk r (hp.subset hr)) (hk s (hp.subset hs)) h

theorem keyOk_of {key : List (Nat × FieldType)} {cols : List Text}
    (h : ∀ p ∈ key, p.2 = FieldType.integer → ∃ n : Int, cols[p.1 - 1]? = some (num n)) : KeyOk key cols :=
  fun _ hi => h _ hi rfl

/-- The rows of the tables that are read. -/
theorem sortable_rows (z : Codec) (hz : Faithful z) (uc cc : Int64 → Int64) (es : List Element) (files : Table → Text)
    (hd : Dump z uc cc es files) (hn : ∀ p ∈ userNames es, '\t' ∉ p.2.toList ∧ '\n' ∉ p.2.toList) (t : Table) (ht : t ∈ ofInterest) :
    ∃ rows, files t = tableText rows ++ endMarker ∧ ∀ r ∈ rows, Good r ∧ KeyOk (dumpDef t).key r := by
  obtain ⟨t1, t2, t3, t4, t5, t6, t7, t8⟩ := C42_history z uc cc es files hd
  simp only [ofInterest, List.mem_cons, List.not_mem_nil, or_false] at ht
  rcases ht with rfl | rfl | rfl | rfl | rfl | rfl | rfl | rfl | rfl | rfl
  · refine ⟨_, t1, fun r hr => ?_⟩
    obtain ⟨a, _, rfl⟩ := List.mem_map.1 hr
    exact ⟨good_hist hz (t := .nodes) (e := .node a) (by simp [histRows]), keyOk_of (by simp [dumpDef, nodeRow])⟩
  · refine ⟨_, t2, fun r hr => ?_⟩
    obtain ⟨a, _, hr⟩ := List.mem_flatMap.1 hr
    refine ⟨good_hist hz (t := .nodeTags) (e := .node a) hr, ?_⟩
    obtain ⟨b, _, rfl⟩ := List.mem_map.1 hr
    exact keyOk_of (by simp [dumpDef])
  · refine ⟨_, t3, fun r hr => ?_⟩
    obtain ⟨a, _, rfl⟩ := List.mem_map.1 hr
    exact ⟨good_hist hz (t := .ways) (e := .way a) (by simp [histRows]), keyOk_of (by simp [dumpDef, wayRow])⟩
  · refine ⟨_, t4, fun r hr => ?_⟩
    obtain ⟨a, _, hr⟩ := List.mem_flatMap.1 hr
    refine ⟨good_hist hz (t := .wayNodes) (e := .way a) hr, ?_⟩
    obtain ⟨b, _, rfl⟩ := List.mem_map.1 hr
    exact keyOk_of (by simp [dumpDef])
  · refine ⟨_, t5, fun r hr => ?_⟩
    obtain ⟨a, _, hr⟩ := List.mem_flatMap.1 hr
    refine ⟨good_hist hz (t := .wayTags) (e := .way a) hr, ?_⟩
    obtain ⟨b, _, rfl⟩ := List.mem_map.1 hr
    exact keyOk_of (by simp [dumpDef])
  · refine ⟨_, t6, fun r hr => ?_⟩
    obtain ⟨a, _, rfl⟩ := List.mem_map.1 hr
    exact ⟨good_hist hz (t := .relations) (e := .relation a) (by simp [histRows]), keyOk_of (by simp [dumpDef, relationRow])⟩
  · refine ⟨_, t7, fun r hr => ?_⟩
    obtain ⟨a, _, hr⟩ := List.mem_flatMap.1 hr
    refine ⟨good_hist hz (t := .relationMembers) (e := .relation a) hr, ?_⟩
    obtain ⟨b, _, rfl⟩ := List.mem_map.1 hr
    exact keyOk_of (by simp [dumpDef])
  · refine ⟨_, t8, fun r hr => ?_⟩
    obtain ⟨a, _, hr⟩ := List.mem_flatMap.1 hr
    refine ⟨good_hist hz (t := .relationTags) (e := .relation a) hr, ?_⟩
    obtain ⟨b, _, rfl⟩ := List.mem_map.1 hr
    exact keyOk_of (by simp [dumpDef])
  · obtain ⟨cs, _, _, e⟩ := dump_changesets hd
    refine ⟨_, e, fun r hr => ?_⟩
    obtain ⟨p, _, rfl⟩ := List.mem_map.1 hr
    exact ⟨good_changeset .., keyOk_of (by simp [dumpDef, Spec.changesetRow])⟩
  · obtain ⟨us, hl, _, e⟩ := dump_users hd
    refine ⟨_, e, fun r hr => ?_⟩
    obtain ⟨p, hp, rfl⟩ := List.mem_map.1 hr
    exact ⟨good_user _ _ (hn p (lastValue_mem ((hl.2 p.1 p.2).1 hp))), keyOk_of (by simp [dumpDef, Spec.userRow])⟩

/-- The tables of every dump can be sorted, whatever the order of strings. -/
theorem C53_sortable (z : Codec) (hz : Faithful z) (le : Text → Text → Prop) (h1 : ∀ a b, le a b ∨ le b a)
    (h2 : ∀ a b c, le a b → le b c → le a c) (uc cc : Int64 → Int64) (es : List Element) (files : Table → Text)
    (hd : Dump z uc cc es files) (hn : ∀ p ∈ userNames es, '\t' ∉ p.2.toList ∧ '\n' ∉ p.2.toList) :
    ∃ sorted, SortedCopy le files sorted := by
  suffices h : ∀ t, ∃ sorted, t ∈ ofInterest → Sorted le (dumpDef t).key (files t) sorted by
    refine ⟨fun t => (h t).choose, fun t d f he => ?_⟩
    by_cases ht : t ∈ ofInterest
    · rw [dumpTables_eq t ht] at he
      simp only [Option.some.injEq, Prod.mk.injEq] at he
      obtain ⟨rfl, -⟩ := he
      exact (h t).choose_spec ht
    · unfold dumpTables at he
      rw [if_neg ht] at he
      cases he
  intro t
  by_cases ht : t ∈ ofInterest
  swap
  · exact ⟨[], fun h => absurd h ht⟩
  obtain ⟨rows, e, hr⟩ := sortable_rows z hz uc cc es files hd hn t ht
  obtain ⟨s, hs⟩ := sorted_exists h1 h2 (dumpDef t).key rows (fun r h => (hr r h).1) (fun r h => (hr r h).2)
  exact ⟨s, fun _ => e ▸ hs⟩

/-! ### A concrete round trip -/

namespace RoundTripExample

/-- Backslash escapes for backslash, tab and newline. -/
def escape : Text → Text
  | [] => []
  | '\\' :: t => '\\' :: '\\' :: escape t
  | '\t' :: t => '\\' :: 't' :: escape t
  | '\n' :: t => '\\' :: 'n' :: escape t
  | c :: t => c :: escape t

def unescape : Text → Option Text
  | [] => some []
  | '\\' :: '\\' :: t => (unescape t).map ('\\' :: ·)
  | '\\' :: 't' :: t => (unescape t).map ('\t' :: ·)
  | '\\' :: 'n' :: t => (unescape t).map ('\n' :: ·)
  | c :: t => if c = '\\' then none else (unescape t).map (c :: ·)

def codec : Codec := ⟨fun s => escape s.toList, fun t => (unescape t).map String.ofList⟩

theorem unescape_escape (t : Text) : unescape (escape t) = some t := by
  fun_induction escape t with
  | case1 => rfl
  | case2 t ih => simp [unescape, ih]
  | case3 t ih => simp [unescape, ih]
  | case4 t ih => simp [unescape, ih]
  | case5 c t h1 h2 h3 ih =>
    rw [unescape.eq_def]
    split <;> simp_all

theorem escape_tab (t : Text) : '\t' ∉ escape t := by
  fun_induction escape t with
  | case1 => simp
  | case2 t ih => simp [ih]
  | case3 t ih => simp [ih]
  | case4 t ih => simp [ih]
  | case5 c t h1 h2 h3 ih => simp [ih]; exact fun h => h2 h.symm

theorem escape_newline (t : Text) : '\n' ∉ escape t := by
  fun_induction escape t with
  | case1 => simp
  | case2 t ih => simp [ih]
  | case3 t ih => simp [ih]
  | case4 t ih => simp [ih]
  | case5 c t h1 h2 h3 ih => simp [ih]; exact fun h => h3 h.symm

/-- There are faithful codecs. -/
theorem faithful : Faithful codec :=
  ⟨fun s => by simp [codec, unescape_escape], fun s => escape_tab _, fun s => escape_newline _⟩

/-- The order of texts by code point. -/
def le (a b : Text) : Prop := a ≤ b

def n1 : Node := { exNode with id := 1, version := 1, uid := 7, user := "Ada", tags := [⟨"a\tb", "x"⟩, ⟨"k", "1\n2\\"⟩] }
def n2 : Node := { n1 with version := 2, visible := false, tags := [] }
def y1 : Way := ⟨-4, 1, 5000, 8, -1, "", true, [1, 2, 1], [⟨"highway", "path"⟩]⟩
def r1 : Relation := ⟨9, 1, 0, 6, 7, "Ada", true, [.node ⟨-2, "stop"⟩, .node ⟨1, ""⟩, .way ⟨4, ""⟩], [⟨"type", "route"⟩]⟩
def r2 : Relation := ⟨9, 2, 0, 6, 7, "Ada", true, [.node ⟨5, "a"⟩, .node ⟨3, "b"⟩], []⟩

/-- Versions of a node in reverse order, a way, a relation. -/
def es : List Element := [.relation r1, .node n2, .node n1, .sentinel, .way y1]

theorem timeOk : ∀ e ∈ es, TimeOk e := by
  intro e he
  simp only [es, List.mem_cons, List.not_mem_nil, or_false] at he
  rcases he with rfl | rfl | rfl | rfl | rfl <;> (unfold TimeOk; trivial)

theorem storable : Storable es where
  nodes := by simp [Spec.nodesOf, es, n1, n2]
  ways := by simp [Spec.waysOf, es]
  relations := by simp [Spec.relationsOf, es]
  coordinates := by
    intro n hn
    have : n = n2 ∨ n = n1 := by simpa [Spec.nodesOf, es] using hn
    rcases this with rfl | rfl <;> exact ⟨by decide +kernel, by decide +kernel⟩
  names := by
    have e : userNames es = [(7, "Ada"), (7, "Ada"), (7, "Ada"), (-1, "")] := rfl
    rw [e]
    decide
  refs := by simp [Spec.waysOf, es, y1]
  members := by simp [Spec.relationsOf, es, r1]

/-- The hypotheses of `C53_round_trip` hold for the example. -/
theorem dump : ∃ files sorted, Dump codec (fun _ => 0) (fun _ => 0) es files ∧ SortedCopy le files sorted := by
  obtain ⟨files, hd⟩ := dump_total codec (fun _ => 0) (fun _ => 0) es timeOk (fun _ => by decide +kernel) (fun _ => by decide +kernel)
  obtain ⟨sorted, hs⟩ := C53_sortable codec faithful le (fun a b => List.le_total a b) (fun a b c => List.le_trans) _ _ es files hd
    storable.names
  exact ⟨files, sorted, hd, hs⟩

theorem exact : ∀ e ∈ es, Exact e := by
  intro e he
  simp only [es, List.mem_cons, List.not_mem_nil, or_false] at he
  rcases he with rfl | rfl | rfl | rfl | rfl
  · exact ⟨0, rfl⟩
  · exact exNode_exact
  · exact exNode_exact
  · trivial
  · exact ⟨5, rfl⟩

theorem consistent : Consistent es where
  changesets := by
    have e : changesetUsers es = [(6, 7), (5, 7), (5, 7), (8, -1)] := rfl
    rw [e]; decide
  users := by
    have e : userNames es = [(7, "Ada"), (7, "Ada"), (7, "Ada"), (-1, "")] := rfl
    rw [e]; decide

instance (a b : Text) : Decidable (le a b) := inferInstanceAs (Decidable (a ≤ b))
instance (a b : Tag) : Decidable (TagLe codec le a b) := inferInstanceAs (Decidable (le _ _))
instance (a b : Member) : Decidable (MemberLe codec le a b) := inferInstanceAs (Decidable (_ ∧ (_ → _)))

theorem tags : ∀ e ∈ es, (tagsOf e).Pairwise fun a b => TagLe codec le a b ∧ ¬ TagLe codec le b a := by
  intro e he
  simp only [es, List.mem_cons, List.not_mem_nil, or_false] at he
  rcases he with rfl | rfl | rfl | rfl | rfl <;> decide +kernel

theorem members : ∀ r ∈ Spec.relationsOf es, r.members.Pairwise (MemberLe codec le) := by
  intro r hr
  have : r = r1 := by simpa [Spec.relationsOf, es] using hr
  subst this
  decide +kernel

/-- `C53_exact` on the example: what comes back is the input, sorted. -/
example : ∃ files sorted it it', Dump codec (fun _ => 0) (fun _ => 0) es files ∧ SortedCopy le files sorted ∧
    ElementIterator.new dumpTables sorted = .ok it ∧
    Iterates (ElementIterator.next codec) it
      [.node n1, .node n2, .sentinel, .way y1, .sentinel, .relation r1, .sentinel] it' := by
  obtain ⟨files, sorted, hd, hs⟩ := dump
  obtain ⟨it, it', ns, ws, rs, h1, h2, _, n1', n2', w1, _, r1', _⟩ :=
    C53_exact codec faithful le _ _ es files sorted hd storable hs exact consistent tags members
  refine ⟨files, sorted, it, it', hd, hs, h1, ?_⟩
  have ew : ws = [y1] := List.perm_singleton.1 w1
  have er : rs = [r1] := List.perm_singleton.1 r1'
  have en : ns = [n1, n2] := by
    have e : [n1, n2].Perm (Spec.nodesOf es) := List.Perm.swap n2 n1 []
    refine List.Perm.eq_of_pairwise ?_ n2' (?_ : [n1, n2].Pairwise _) (n1'.trans e.symm)
    · intro a b _ _ h h'
      simp only [KeyBefore, Int64.lt_iff_toInt_lt, Int32.lt_iff_toInt_lt, ← Int64.toInt_inj] at h h'
      omega
    · simp [KeyBefore, n1, n2]
  subst en ew er
  exact h2

/-- `C46_order_lost` on an example. -/
example : ∃ files sorted it it' out r', Dump codec (fun _ => 0) (fun _ => 0) [.relation r2] files ∧
    SortedCopy le files sorted ∧ ElementIterator.new dumpTables sorted = .ok it ∧
    Iterates (ElementIterator.next codec) it out it' ∧ Element.relation r' ∈ out ∧
    r'.members = [.node ⟨3, "b"⟩, .node ⟨5, "a"⟩] := by
  have hst : Storable [.relation r2] := by
    refine ⟨by simp [Spec.nodesOf], by simp [Spec.waysOf], by simp [Spec.relationsOf], by simp [Spec.nodesOf], ?_, by simp [Spec.waysOf], by simp [Spec.relationsOf, r2]⟩
    have e : userNames [.relation r2] = [(7, "Ada")] := rfl
    rw [e]; decide
  obtain ⟨files, hd⟩ := dump_total codec (fun _ => 0) (fun _ => 0) [.relation r2]
    (by intro e he; simp only [List.mem_cons, List.not_mem_nil, or_false] at he; subst he; unfold TimeOk; decide +kernel)
    (fun _ => by decide +kernel) (fun _ => by decide +kernel)
  obtain ⟨sorted, hs⟩ := C53_sortable codec faithful le (fun a b => List.le_total a b) (fun a b c => List.le_trans) _ _ _ files hd
    hst.names
  obtain ⟨it, it', ns, ns', ws, ws', rs, rs', h1, h2, _, _⟩ := C53_round_trip codec faithful le _ _ _ files sorted hd hst hs
  obtain ⟨r', a, _, _, b⟩ := C46_order_lost codec faithful le (fun t => List.le_refl t) _ _ _ files sorted hd hst hs it it' _ h1 h2 r2
    (by simp) rfl
  exact ⟨files, sorted, it, it', _, r', hd, hs, h1, h2, a, b⟩

end RoundTripExample
end OsmIo
