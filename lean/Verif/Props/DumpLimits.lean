import Verif.Props.DumpOrder
import Verif.Props.DamagedDump
/-!
# What a dump cannot hold (C105)
-/
namespace OsmIo
open Text Sql Apidb Spec Wire

/-! ### Coordinates that do not fit the columns -/

theorem seven_far {c : F64} (h : 215 ≤ |c|) : (seven c).toInt < -2147483648 ∨ 2147483647 < (seven c).toInt := by
  obtain ⟨k, hk, hkv⟩ := F64.round_spec (F64.mul c 10000000)
  have e1 : |F64.mul c 10000000 - c * 10000000| ≤ 1 / 2 ^ 53 * |c * 10000000| := rnd_err _
  have hc : (2150000000 : ℚ) ≤ |c * 10000000| := by
    rw [abs_mul, abs_of_pos (show (0 : ℚ) < 10000000 by norm_num)]
    linarith
  have e2 : |c * 10000000| - |F64.mul c 10000000| ≤ 1 / 2 ^ 53 * |c * 10000000| := by
    refine (abs_sub_abs_le_abs_sub _ _).trans ?_
    rw [abs_sub_comm]; exact e1
  have e3 : |F64.mul c 10000000| - |(k : ℚ)| ≤ 1 / 2 := (abs_sub_abs_le_abs_sub _ _).trans hkv
  have e4 : (2147483649 : ℚ) ≤ |(k : ℚ)| := by
    have : (1 : ℚ) / 2 ^ 53 * |c * 10000000| ≤ 1 / 2 ^ 20 * |c * 10000000| :=
      mul_le_mul_of_nonneg_right (by norm_num) (abs_nonneg _)
    have : (1 - (1 : ℚ) / 2 ^ 20) * 2150000000 ≤ (1 - (1 : ℚ) / 2 ^ 20) * |c * 10000000| :=
      mul_le_mul_of_nonneg_left hc (by norm_num)
    norm_num at this ⊢
    linarith
  have e5 : 2147483649 ≤ |k| := by
    have : ((2147483649 : ℤ) : ℚ) ≤ ((|k| : ℤ) : ℚ) := by rw [Int.cast_abs]; exact_mod_cast e4
    exact Int.cast_le.1 this
  rw [Int.abs_eq_natAbs] at e5
  rw [seven, hk, F64.toI64, F64.trunc_int, Int64.toInt_ofInt_of_le (by omega) (by omega)]
  omega

theorem far_row (n : Node) (h : 215 ≤ |n.coordinate.lat| ∨ 215 ≤ |n.coordinate.lon|) (hg : Good (Spec.nodeRow n)) :
    BadRow .nodes (tocColumns .nodes) (tabbed (Spec.nodeRow n)) := by
  have no : ∀ {c : F64} {x : Text}, 215 ≤ |c| → x = num (seven c).toInt → ¬ AnyInt32 x := by
    rintro c x hc rfl ⟨v, hv⟩
    have e : parseI32 (num (seven c).toInt) = some v := parseI32_iff.2 hv
    rw [parseI32, num, parseInt_showInt] at e
    have := seven_far hc
    simp only at e
    rw [if_neg (by omega)] at e
    exact nomatch e
  have cell : ∀ name x, Cell (tocColumns .nodes) (tabbed (Spec.nodeRow n)) name x → (name.toList, x) ∈ (tocColumns .nodes).zip (Spec.nodeRow n) := by
    intro name x hx
    rwa [Cell, hg.split] at hx
  rcases h with h | h
  · refine ⟨("latitude", AnyInt32), by simp [demands], ?_⟩
    rintro ⟨x, hc, hx⟩
    refine no h ?_ hx
    have := cell _ _ hc
    simp only [tocColumns, Spec.nodeRow, List.zip_cons_cons, List.zip_nil_right, List.mem_cons, Prod.mk.injEq, List.not_mem_nil, or_false] at this
    rcases this with ⟨h, e⟩ | ⟨h, e⟩ | ⟨h, e⟩ | ⟨h, e⟩ | ⟨h, e⟩ | ⟨h, e⟩ | ⟨h, e⟩ | ⟨h, e⟩ | ⟨h, e⟩ <;> first | exact e | exact absurd h (by decide +kernel)
  · refine ⟨("longitude", AnyInt32), by simp [demands], ?_⟩
    rintro ⟨x, hc, hx⟩
    refine no h ?_ hx
    have := cell _ _ hc
    simp only [tocColumns, Spec.nodeRow, List.zip_cons_cons, List.zip_nil_right, List.mem_cons, Prod.mk.injEq, List.not_mem_nil, or_false] at this
    rcases this with ⟨h, e⟩ | ⟨h, e⟩ | ⟨h, e⟩ | ⟨h, e⟩ | ⟨h, e⟩ | ⟨h, e⟩ | ⟨h, e⟩ | ⟨h, e⟩ | ⟨h, e⟩ <;> first | exact e | exact absurd h (by decide +kernel)

/-- The nodes of the sorted copy of a dump. -/
theorem listed_node (z : Codec) (hz : Faithful z) {le : Text → Text → Prop} {uc cc : Int64 → Int64} {es : List Element} {files sorted : Table → Text}
    (hd : Dump z uc cc es files) (hsort : SortedCopy le files sorted) (n : Node) (hn : .node n ∈ es) :
    Good (Spec.nodeRow n) ∧ Listed (sorted .nodes) (tabbed (Spec.nodeRow n)) := by
  have hg : ∀ n ∈ nodesOf es, Good (Spec.nodeRow n) := fun n _ => good_hist hz (t := .nodes) (e := .node n) (by simp [histRows])
  have hm : n ∈ nodesOf es := List.mem_filterMap.2 ⟨_, hn, rfl⟩
  obtain ⟨l, hp, hl, -⟩ := sorted_lines (f := Spec.nodeRow) hg (C42_history z uc cc es files hd).1 (hsort .nodes _ _ (dumpTables_eq .nodes (by decide)))
  refine ⟨hg n hm, ?_, ?_⟩
  · rw [hl]
    exact List.mem_map_of_mem (hp.symm.subset hm)
  · intro x hx
    rw [hl] at hx
    obtain ⟨a, ha, rfl⟩ := List.mem_map.1 hx
    have := (hg a (hp.subset ha)).stop
    rw [stopLine_false] at this
    exact this

/-- C105. A node at 215 degrees or more, whatever it is that makes it so, is written to a dump as any other, but the dump cannot be read: the reader delivers what comes before and then panics, or panics at once. -/
theorem C105_too_far (z : Codec) (hz : Faithful z) (le : Text → Text → Prop) (uc cc : Int64 → Int64) (es : List Element) (n : Node) (hn : .node n ∈ es)
    (hfar : 215 ≤ |n.coordinate.lat| ∨ 215 ≤ |n.coordinate.lon|) :
    ((∀ e ∈ es, TimeOk e) → (∀ k, inRange ((uc k).toInt / 1000000) = true) → (∀ k, inRange ((cc k).toInt / 1000000) = true) → ∃ files, Dump z uc cc es files) ∧
    ∀ files sorted, Dump z uc cc es files → SortedCopy le files sorted →
      (∀ it, ElementIterator.new dumpTables sorted = .ok it →
        (∃ out s, Yields (ElementIterator.next z) it out s ∧ ElementIterator.next z s = .panic) ∧ ∀ out it', ¬ Iterates (ElementIterator.next z) it out it') ∧
      ∀ (zl : Zlib) (info : FileInfo) (c : CompressionType) (r : Out Bytes), ApidbToPbf zl z dumpTables sorted info c r ↔ r = .panic := by
  refine ⟨fun ht hu hc => dump_total z uc cc es ht hu hc, fun files sorted hd hsort => ?_⟩
  obtain ⟨hg, hl⟩ := listed_node z hz hd hsort n hn
  have hbad := far_row n hfar hg
  have hnd : (tocColumns .nodes).Nodup := by decide +kernel
  have hdef : TableDef.new .nodes (tocColumns .nodes) = .ok (dumpDef .nodes) := by decide +kernel
  have hdt := dumpTables_eq .nodes (by decide)
  refine ⟨fun it hit => C74_object_row z .nodes (.inl rfl) dumpTables sorted _ hnd _ _ hdef hdt _ hl hbad it hit, fun zl info c r => ?_⟩
  refine C74_program zl z .nodes (by simp) dumpTables (fun t ht => ⟨_, _, dumpTables_eq t ?_⟩) sorted _ hnd _ _ hdef hdt _ hl hbad info c r
  revert t
  decide

namespace RoundTripExample

/-- The hypotheses of `C105_too_far` can be met: a dump of a node at 1000 degrees and a way, and its sorted copy. -/
example : ∃ files sorted, Dump codec (fun _ => 0) (fun _ => 0) [.node { n1 with coordinate := ⟨1000, 0⟩ }, .way y1] files ∧ SortedCopy le files sorted ∧
    ApidbToPbf exZ codec dumpTables sorted exInfo .zlib .panic := by
  have h := C105_too_far codec faithful le (fun _ => 0) (fun _ => 0) [.node { n1 with coordinate := ⟨1000, 0⟩ }, .way y1] _ (List.mem_cons_self ..) (.inl (by decide +kernel))
  obtain ⟨files, hd⟩ := h.1 (by
    intro e he
    simp only [List.mem_cons, List.not_mem_nil, or_false] at he
    rcases he with rfl | rfl <;> (unfold TimeOk; decide +kernel)) (fun _ => by decide +kernel) (fun _ => by decide +kernel)
  obtain ⟨sorted, hs⟩ := C53_sortable codec faithful le (fun a b => List.le_total a b) (fun a b c => List.le_trans) _ _ _ files hd (by
    have e : userNames [.node { n1 with coordinate := ⟨1000, 0⟩ }, .way y1] = [(7, "Ada"), (-1, "")] := rfl
    rw [e]; decide)
  exact ⟨files, sorted, hd, hs, ((h.2 files sorted hd hs).2 exZ exInfo .zlib .panic).2 rfl⟩

/-- Two ways with the same id and version. -/
def twins : List Element := [.way ⟨1, 1, 1000000, 5, 7, "Ada", true, [3], [⟨"a", "x"⟩]⟩, .way ⟨1, 1, 2000000, 5, 7, "Ada", true, [4], [⟨"b", "y"⟩]⟩]

/-- A way of a user with a tab in the name. -/
def tabbedUser : List Element := [.way ⟨1, 1, 1000000, 5, 7, "A\tB", true, [3], []⟩]

end RoundTripExample

open RoundTripExample in
/-- C105, as it is: of two ways with the same id and version, the one that comes first in the sorted table gets the nodes and tags of both, in one list, and the other gets none. -/
theorem C105_same_version :
    ∃ (files sorted : Table → Text) (it it' : ElementIterator), Dump codec (fun _ => 0) (fun _ => 0) twins files ∧ SortedCopy le files sorted ∧
      ElementIterator.new dumpTables sorted = .ok it ∧
      Iterates (ElementIterator.next codec) it [.sentinel, .way ⟨1, 1, 1000000, 5, 7, "Ada", true, [3, 4], [⟨"a", "x"⟩, ⟨"b", "y"⟩]⟩,
        .way ⟨1, 1, 2000000, 5, 7, "Ada", true, [], []⟩, .sentinel, .sentinel] it' := by
  obtain ⟨f, hf⟩ : ∃ f, runOf twins = some f := Option.isSome_iff_exists.1 (by decide +kernel)
  have h : readTurned .nodes f = some [.sentinel, .way ⟨1, 1, 1000000, 5, 7, "Ada", true, [3, 4], [⟨"a", "x"⟩, ⟨"b", "y"⟩]⟩,
        .way ⟨1, 1, 2000000, 5, 7, "Ada", true, [], []⟩, .sentinel, .sentinel] := by
    have : (runOf twins).all (fun f => decide (readTurned .nodes f = some [.sentinel, .way ⟨1, 1, 1000000, 5, 7, "Ada", true, [3, 4], [⟨"a", "x"⟩, ⟨"b", "y"⟩]⟩,
        .way ⟨1, 1, 2000000, 5, 7, "Ada", true, [], []⟩, .sentinel, .sentinel])) = true := by decide +kernel
    rw [hf] at this
    exact of_decide_eq_true this
  have hs : SortedCopy le f (turned .nodes f) := by
    have : (runOf twins).all (goodCopy .nodes) = true := by decide +kernel
    rw [hf] at this
    exact goodCopy_sorted _ _ this
  obtain ⟨it, it', h1, h2⟩ := readTurned_iterates _ _ _ h
  exact ⟨f, _, it, it', runOf_dump _ _ hf, hs, h1, h2⟩

open RoundTripExample in
/-- C105, as it is: the name of a user is written without escapes. A tab in it moves the columns after it, and opening the dump panics. -/
theorem C105_tab_in_name :
    ∃ (files sorted : Table → Text), Dump codec (fun _ => 0) (fun _ => 0) tabbedUser files ∧ SortedCopy le files sorted ∧
      ElementIterator.new dumpTables sorted = .panic := by
  obtain ⟨f, hf⟩ : ∃ f, runOf tabbedUser = some f := Option.isSome_iff_exists.1 (by decide +kernel)
  have h : goodCopy .nodes f = true ∧ (match ElementIterator.new dumpTables (turned .nodes f) with | .panic => true | _ => false) = true := by
    have : (runOf tabbedUser).all (fun f => decide (goodCopy .nodes f = true ∧
      (match ElementIterator.new dumpTables (turned .nodes f) with | .panic => true | _ => false) = true)) = true := by decide +kernel
    rw [hf] at this
    exact of_decide_eq_true this
  refine ⟨f, _, runOf_dump _ _ hf, goodCopy_sorted _ _ h.1, ?_⟩
  have := h.2
  split at this
  · assumption
  · exact nomatch this

end OsmIo
