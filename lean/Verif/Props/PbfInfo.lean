import Verif.Model.PbfInfo
import Verif.Props.Converters
import Verif.Props.RefusalsMore
/-! # C76: the program `pbf-info` -/
namespace OsmIo
open Spec Text

/-- The values printed with a label: what follows it in the lines that start with it, in order. -/
def Spec.labelled (label : String) (lines : List Text) : List Text :=
  (lines.filter fun l => label.toList.isPrefixOf l).map fun l => l.drop label.toList.length

/-- The time, if any, is one that the reader of `pbf-info` can turn into a text: the years 0 to 9999. -/
def Spec.PrintableTime (i : FileInfo) : Prop :=
  ∀ t, i.osmosis_replication_timestamp = some t → -62167219200 ≤ t.toInt ∧ t.toInt < 253402300800

theorem labelled_append (l : String) (a b : List Text) : labelled l (a ++ b) = labelled l a ++ labelled l b := by
  simp [labelled]

theorem labelled_own (l : String) (xs : List Text) : labelled l (xs.map fun x => l.toList ++ x) = xs := by
  induction xs with
  | nil => rfl
  | cons x xs ih =>
    have h : l.toList.isPrefixOf (l.toList ++ x) = true := by simp
    simp only [labelled, List.map_cons, List.filter_cons, h, if_true, List.drop_left] at ih ⊢
    rw [ih]

theorem labelled_other (l m : String) (h : ¬ l.toList <+: m.toList) (h' : ¬ m.toList <+: l.toList) (xs : List Text) :
    labelled l (xs.map fun x => m.toList ++ x) = [] := by
  simp only [labelled, List.map_eq_nil_iff, List.filter_eq_nil_iff, List.mem_map]
  rintro _ ⟨x, _, rfl⟩ hp
  rw [List.isPrefixOf_iff_prefix] at hp
  rcases List.prefix_or_prefix_of_prefix hp (List.prefix_append m.toList x) with h1 | h1
  · exact h h1
  · exact h' h1

/-- Lines in groups: a label and the values printed with it. -/
def groupLines (gs : List (String × List Text)) : List Text := gs.flatMap fun g => g.2.map fun x => g.1.toList ++ x

theorem labelled_groups (l : String) (gs : List (String × List Text))
    (h : ∀ m ∈ gs.map Prod.fst, m = l ∨ ¬ l.toList <+: m.toList ∧ ¬ m.toList <+: l.toList) :
    labelled l (groupLines gs) = (gs.filter fun g => g.1 = l).flatMap Prod.snd := by
  induction gs with
  | nil => rfl
  | cons g gs ih =>
    have ih := ih fun m hm => h m (by simp [hm])
    have e : groupLines (g :: gs) = (g.2.map fun x => g.1.toList ++ x) ++ groupLines gs := by simp [groupLines]
    rw [e, labelled_append, ih]
    by_cases hg : g.1 = l
    · rw [hg, labelled_own, List.filter_cons, if_pos (by simpa using hg), List.flatMap_cons]
    · have := (h g.1 (by simp)).resolve_left hg
      rw [labelled_other l g.1 this.1 this.2, List.filter_cons, if_neg (by simpa using hg), List.nil_append]

/-- The labels that `pbf-info` prints, in order. -/
def Spec.infoLabels : List String :=
  ["PBF file: ", "Bounding box: ", "Required feature: ", "Optional feature: ", "Writing program: ", "Source: ",
   "osmosis_replication_timestamp: ", "osmosis_replication_sequence_number: ", "osmosis_replication_base_url: ", "Feature queries",
   "Required 'HistoricalInformation': ", "Required 'DenseNodes': ", "Optional 'Sort.Type_then_ID': "]

theorem labels_apart : ∀ l ∈ infoLabels, ∀ m ∈ infoLabels, m = l ∨ ¬ l.toList <+: m.toList ∧ ¬ m.toList <+: l.toList := by
  decide +kernel

/-- The text printed for a bounding box. -/
def Spec.boxText (num : F64 → Text) : Option BoundingBox → Text
  | none => "None".toList
  | some b => "left: ".toList ++ num b.left ++ ", bottom: ".toList ++ num b.bottom ++ ", right: ".toList ++ num b.right ++ ", top: ".toList ++ num b.top

/-- The groups of lines for some metadata, `ts` being the texts of the replication timestamp. -/
def infoGroups (num : F64 → Text) (path : Text) (i : FileInfo) (ts : List Text) : List (String × List Text) :=
  [("PBF file: ", [path]), ("Bounding box: ", [boxText num i.bounding_box]), ("Required feature: ", i.required_features.map String.toList),
   ("Optional feature: ", i.optional_features.map String.toList), ("Writing program: ", i.writingprogram.toList.map String.toList),
   ("Source: ", i.source.toList.map String.toList), ("osmosis_replication_timestamp: ", ts),
   ("osmosis_replication_sequence_number: ", i.osmosis_replication_sequence_number.toList.map fun n => showInt n.toInt),
   ("osmosis_replication_base_url: ", i.osmosis_replication_base_url.toList.map String.toList), ("Feature queries", [[]]),
   ("Required 'HistoricalInformation': ", [showBool (i.required "HistoricalInformation")]),
   ("Required 'DenseNodes': ", [showBool (i.required "DenseNodes")]),
   ("Optional 'Sort.Type_then_ID': ", [showBool (i.optional "Sort.Type_then_ID")])]

theorem groups_abstract (s1 s2 s3 s4 s5 s6 s7 s8 s9 s10 s11 s12 s13 : String) (path box : Text) (req opt : List String) (w s : Option String)
    (ts : List Text) (sn : Option Int64) (u : Option String) (b1 b2 b3 : Text) :
    (([s1.toList ++ path] ++ [s2.toList ++ box] ++ req.map (fun f => s3.toList ++ f.toList) ++ opt.map (fun f => s4.toList ++ f.toList) ++
      (match w with | none => [] | some p => [s5.toList ++ p.toList]) ++ (match s with | none => [] | some p => [s6.toList ++ p.toList])) ++
      (ts.map fun x => s7.toList ++ x) ++
      ((match sn with | none => [] | some n => [s8.toList ++ showInt n.toInt]) ++ (match u with | none => [] | some p => [s9.toList ++ p.toList]) ++
        [s10.toList, s11.toList ++ b1, s12.toList ++ b2, s13.toList ++ b3]) =
    groupLines [(s1, [path]), (s2, [box]), (s3, req.map String.toList), (s4, opt.map String.toList), (s5, w.toList.map String.toList),
      (s6, s.toList.map String.toList), (s7, ts), (s8, sn.toList.map fun n => showInt n.toInt), (s9, u.toList.map String.toList), (s10, [[]]),
      (s11, [b1]), (s12, [b2]), (s13, [b3])]) ∧
    ([s1.toList ++ path] ++ [s2.toList ++ box] ++ req.map (fun f => s3.toList ++ f.toList) ++ opt.map (fun f => s4.toList ++ f.toList) ++
      (match w with | none => [] | some p => [s5.toList ++ p.toList]) ++ (match s with | none => [] | some p => [s6.toList ++ p.toList]) =
    groupLines [(s1, [path]), (s2, [box]), (s3, req.map String.toList), (s4, opt.map String.toList), (s5, w.toList.map String.toList),
      (s6, s.toList.map String.toList)]) := by
  cases w <;> cases s <;> cases sn <;> cases u <;> simp [groupLines, Function.comp_def]

theorem none_line : "Bounding box: None".toList = "Bounding box: ".toList ++ "None".toList := by decide +kernel

theorem box_line (num : F64 → Text) (o : Option BoundingBox) : boxLine num o = "Bounding box: ".toList ++ boxText num o := by
  cases o with
  | none => exact none_line
  | some b => rfl

theorem info_lines (num : F64 → Text) (path : Text) (i : FileInfo) (ts : List Text) :
    infoBefore num path i ++ (ts.map fun x => "osmosis_replication_timestamp: ".toList ++ x) ++ infoAfter i =
      groupLines (infoGroups num path i ts) := by
  unfold infoBefore infoAfter infoGroups
  rw [box_line]
  exact (groups_abstract _ _ _ _ _ _ _ _ _ _ _ _ _ _ _ _ _ _ _ _ _ _ _ _ _).1

theorem before_lines (num : F64 → Text) (path : Text) (i : FileInfo) :
    infoBefore num path i = groupLines ((infoGroups num path i []).take 6) := by
  unfold infoBefore infoGroups
  rw [box_line]
  exact (groups_abstract _ _ _ _ _ _ "" "" "" "" "" "" "" _ _ _ _ _ _ [] none none [] [] []).2

/-- C76. On a published file whose replication timestamp, if any, is of the years 0 to 9999, `pbf-info` prints the metadata: with each
label exactly the values of the header, in their order, and no other lines; it succeeds exactly if the file has the features it asserts. -/
theorem C76_prints (z : Zlib) (inflates : Format.Inflates) (hz : ∀ c d, inflates c d → z.stream c = d)
    (info : FileInfo) (head rest : Bytes) (h : Format.IsHeaderFrame inflates info head) (hs : ∀ f ∈ info.required_features, Supported f)
    (ht : PrintableTime info) (num : F64 → Text) (path : Text) :
    ∃ lines r, pbfInfo z num path (head ++ rest) = (lines, r) ∧
      labelled "PBF file: " lines = [path] ∧
      labelled "Bounding box: " lines = [boxText num info.bounding_box] ∧
      labelled "Required feature: " lines = info.required_features.map String.toList ∧
      labelled "Optional feature: " lines = info.optional_features.map String.toList ∧
      labelled "Writing program: " lines = info.writingprogram.toList.map String.toList ∧
      labelled "Source: " lines = info.source.toList.map String.toList ∧
      List.Forall₂ (fun x t => IsoText x t.toInt) (labelled "osmosis_replication_timestamp: " lines) info.osmosis_replication_timestamp.toList ∧
      labelled "osmosis_replication_sequence_number: " lines = info.osmosis_replication_sequence_number.toList.map (fun n => showInt n.toInt) ∧
      labelled "osmosis_replication_base_url: " lines = info.osmosis_replication_base_url.toList.map String.toList ∧
      labelled "Required 'HistoricalInformation': " lines = [if "HistoricalInformation" ∈ info.required_features then "true".toList else "false".toList] ∧
      labelled "Required 'DenseNodes': " lines = [if "DenseNodes" ∈ info.required_features then "true".toList else "false".toList] ∧
      labelled "Optional 'Sort.Type_then_ID': " lines = [if "Sort.Type_then_ID" ∈ info.optional_features then "true".toList else "false".toList] ∧
      (∀ l ∈ lines, ∃ label ∈ infoLabels, label.toList <+: l) ∧
      r = if "HistoricalInformation" ∈ info.required_features ∧ "DenseNodes" ∈ info.required_features ∧ "Sort.Type_then_ID" ∈ info.optional_features
        then .ok () else .panic := by
  have ho := (C17_published z inflates hz info head rest h).1 hs
  obtain ⟨ts, hts, hp⟩ : ∃ ts, List.Forall₂ (fun x t => IsoText x t.toInt) ts info.osmosis_replication_timestamp.toList ∧
      pbfInfo z num path (head ++ rest) = (groupLines (infoGroups num path info ts), infoAsserts info) := by
    unfold pbfInfo
    rw [ho]
    cases htime : info.osmosis_replication_timestamp with
    | none =>
      refine ⟨[], by simp, ?_⟩
      rw [← info_lines]
      simp only [htime, List.map_nil, List.append_nil]
    | some t =>
      obtain ⟨h1, h2⟩ := ht t htime
      obtain ⟨x, hx⟩ : ∃ x, replicationTime t = .ok x := by
        have hm : (t * 1000000).toInt = t.toInt * 1000000 := by
          rw [Int64.toInt_mul, show (1000000 : Int64).toInt = 1000000 by decide]
          apply Int.bmod_eq_of_le <;> omega
        exact (C71_total (t * 1000000)).1 (by rw [hm]; omega)
      refine ⟨[x], by simpa using (C71_replication_time t h1 h2 x).1 hx, ?_⟩
      rw [← info_lines]
      simp only [htime, hx, List.map_cons, List.map_nil]
  have hg : ∀ l ∈ infoLabels, labelled l (groupLines (infoGroups num path info ts)) =
      ((infoGroups num path info ts).filter fun g => g.1 = l).flatMap Prod.snd := by
    intro l hl
    exact labelled_groups l _ fun m hm => labels_apart l hl m hm
  have hb : ∀ (f : String) (l : List String), showBool (l.contains f) = if f ∈ l then "true".toList else "false".toList := by
    intro f l
    by_cases h : f ∈ l <;> simp [showBool, h]
  refine ⟨_, _, hp, ?_, ?_, ?_, ?_, ?_, ?_, ?_, ?_, ?_, ?_, ?_, ?_, ?_, ?_⟩
  all_goals first
    | (rw [hg _ (by decide)]; simp [infoGroups]; done)
    | (rw [hg _ (by decide)]; simpa [infoGroups] using hts)
    | (rw [hg _ (by decide)]; simp only [infoGroups, FileInfo.required, FileInfo.optional, hb]; simp; done)
    | skip
  · intro l hl
    obtain ⟨g, hgm, hl⟩ := List.mem_flatMap.1 hl
    obtain ⟨x, _, rfl⟩ := List.mem_map.1 hl
    refine ⟨g.1, ?_, List.prefix_append _ _⟩
    have : g.1 ∈ (infoGroups num path info ts).map Prod.fst := List.mem_map_of_mem hgm
    exact this
  · unfold infoAsserts FileInfo.required FileInfo.optional
    simp [and_assoc]

/-- C76. If the replication timestamp is outside of what can be written as a date (in microseconds, modulo 2^64), the program returns an
error after the lines before it. -/
theorem C76_bad_time (z : Zlib) (inflates : Format.Inflates) (hz : ∀ c d, inflates c d → z.stream c = d)
    (info : FileInfo) (head rest : Bytes) (h : Format.IsHeaderFrame inflates info head) (hs : ∀ f ∈ info.required_features, Supported f)
    (t : Int64) (ht : info.osmosis_replication_timestamp = some t)
    (hbad : ¬ (-96465292 * 86400 * 1000000 ≤ (t * 1000000).toInt ∧ (t * 1000000).toInt < 95026237 * 86400 * 1000000))
    (num : F64 → Text) (path : Text) :
    ∃ lines, pbfInfo z num path (head ++ rest) = (lines, .err) ∧
      labelled "Required feature: " lines = info.required_features.map String.toList ∧
      labelled "osmosis_replication_timestamp: " lines = [] := by
  have ho := (C17_published z inflates hz info head rest h).1 hs
  have hr : replicationTime t = .err := (C71_total (t * 1000000)).2 hbad
  have e := before_lines num path info
  refine ⟨infoBefore num path info, ?_, ?_, ?_⟩
  · unfold pbfInfo
    rw [ho]
    simp only [ht, hr]
  all_goals
    rw [e, labelled_groups _ _ (fun m hm => labels_apart _ (by decide) m (by
      have hm' : m ∈ (infoGroups num path info []).map Prod.fst := by
        obtain ⟨g, hg, rfl⟩ := List.mem_map.1 hm
        exact List.mem_map_of_mem (List.mem_of_mem_take hg)
      exact hm'))]
    simp [infoGroups]

/-- C76. A file that cannot be opened: the program prints nothing and ends as `Reader::new` does. -/
theorem C76_refused (z : Zlib) (inflates : Format.Inflates) (hz : ∀ c d, inflates c d → z.stream c = d) (num : F64 → Text) (path : Text) :
    (∀ (info : FileInfo) (head rest : Bytes), Format.IsHeaderFrame inflates info head → (∃ f ∈ info.required_features, ¬ Supported f) →
      pbfInfo z num path (head ++ rest) = ([], .err)) ∧
    (∀ bad rest : Bytes, Format.IsDamagedFrame inflates bad → pbfInfo z num path (bad ++ rest) = ([], .panic)) := by
  refine ⟨fun info head rest h hs => ?_, fun bad rest hbad => ?_⟩
  · unfold pbfInfo
    rw [(C17_published z inflates hz info head rest h).2 hs]
  · unfold pbfInfo
    rw [C17_damaged_first z inflates hz bad rest hbad]

/-- C76. Compiled with overflow checks the program does the same on every file, unless the replication timestamp in microseconds does not fit 64 bits:
then it panics after the lines before it. -/
theorem C76_checked (z : Zlib) (inflates : Format.Inflates) (hz : ∀ c d, inflates c d → z.stream c = d)
    (info : FileInfo) (head rest : Bytes) (h : Format.IsHeaderFrame inflates info head) (hs : ∀ f ∈ info.required_features, Supported f)
    (num : F64 → Text) (path : Text) :
    ((∀ t, info.osmosis_replication_timestamp = some t → Format.Fits64 (t.toInt * 1000000)) →
      pbfInfoChecked z num path (head ++ rest) = pbfInfo z num path (head ++ rest)) ∧
    (∀ t, info.osmosis_replication_timestamp = some t → ¬ Format.Fits64 (t.toInt * 1000000) →
      ∃ lines, pbfInfoChecked z num path (head ++ rest) = (lines, .panic) ∧
        labelled "Required feature: " lines = info.required_features.map String.toList ∧
        labelled "osmosis_replication_timestamp: " lines = []) := by
  have ho := (C17_published z inflates hz info head rest h).1 hs
  have e6 : (1000000 : Int64).toInt = 1000000 := by decide
  have hf (t : Int64) : fits64 (t.toInt * 1000000) = true ↔ Format.Fits64 (t.toInt * 1000000) := by
    simp [fits64, Format.Fits64]
  refine ⟨fun ht => ?_, fun t ht hbad => ?_⟩
  · unfold pbfInfoChecked pbfInfo
    rw [ho]
    cases htime : info.osmosis_replication_timestamp with
    | none => simp only [htime]
    | some t =>
      have : replicationTimeChecked t = replicationTime t := by
        unfold replicationTimeChecked replicationTime mul64
        rw [e6, if_pos ((hf t).2 (ht t htime))]
        rfl
      simp only [htime, this]
  · have hr : replicationTimeChecked t = .panic := by
      unfold replicationTimeChecked mul64
      rw [e6, if_neg (fun h => hbad ((hf t).1 h))]
      rfl
    have e := before_lines num path info
    refine ⟨infoBefore num path info, ?_, ?_, ?_⟩
    · unfold pbfInfoChecked
      rw [ho]
      simp only [ht, hr]
    all_goals
      rw [e, labelled_groups _ _ (fun m hm => labels_apart _ (by decide) m (by
        have hm' : m ∈ (infoGroups num path info []).map Prod.fst := by
          obtain ⟨g, hg, rfl⟩ := List.mem_map.1 hm
          exact List.mem_map_of_mem (List.mem_of_mem_take hg)
        exact hm'))]
      simp [infoGroups]

/-- C76 (as it holds). Without overflow checks the microseconds wrap around, and the program prints the time they then stand for: whatever timestamp differs from
a printable one by a multiple of 2^64 microseconds is printed as that. -/
theorem C76_wrapped_time (z : Zlib) (inflates : Format.Inflates) (hz : ∀ c d, inflates c d → z.stream c = d)
    (info : FileInfo) (head rest : Bytes) (h : Format.IsHeaderFrame inflates info head) (hs : ∀ f ∈ info.required_features, Supported f)
    (t : Int64) (ht : info.osmosis_replication_timestamp = some t) (k micros : ℤ) (hk : t.toInt * 1000000 = k * 2 ^ 64 + micros)
    (h0 : -62167219200000000 ≤ micros) (h1 : micros < 253402300800000000) (num : F64 → Text) (path : Text) :
    ∃ lines r x, pbfInfo z num path (head ++ rest) = (lines, r) ∧ labelled "osmosis_replication_timestamp: " lines = [x] ∧
      IsoText x (micros / 1000000) := by
  have ho := (C17_published z inflates hz info head rest h).1 hs
  have hm : (t * 1000000).toInt = micros := by
    rw [Int64.toInt_mul, show (1000000 : Int64).toInt = 1000000 by decide, hk, Int.bmod_def]
    split <;> omega
  obtain ⟨x, hx⟩ : ∃ x, replicationTime t = .ok x := (C71_total (t * 1000000)).1 (by rw [hm]; omega)
  refine ⟨groupLines (infoGroups num path info [x]), infoAsserts info, x, ?_, ?_, ?_⟩
  · rw [← info_lines]
    unfold pbfInfo
    rw [ho]
    simp only [ht, hx, List.map_cons, List.map_nil]
  · rw [labelled_groups "osmosis_replication_timestamp: " (infoGroups num path info [x]) fun m hm => labels_apart _ (by decide) m hm]
    simp [infoGroups]
  · have := (C71_text (t * 1000000) (by omega) (by omega) x).1 hx
    rwa [hm] at this

/-- A header whose timestamp is of the year 586524: a release build prints the year 1970, a debug build panics. -/
example : let file := blockBytes exZ .zlib [.header ⟨none, ["OsmSchema-V0.6", "DenseNodes"], [], none, none, some 18446744073710, none, none⟩]
    ("osmosis_replication_timestamp: 1970-01-01T00:00:00Z".toList ∈ (pbfInfo exZ (fun _ => []) "a.pbf".toList file).1) ∧
    (pbfInfoChecked exZ (fun _ => []) "a.pbf".toList file).2 = .panic ∧ (18446744073710 * 1000000 : ℤ) = 1 * 2 ^ 64 + 448384 := by
  decide +kernel

/-- The header of the foreign file meets the hypotheses of C76_prints (it has no timestamp); its features are not those asserted. -/
example : ∃ lines, pbfInfo exZ (fun _ => []) "a.pbf".toList exForeignFile = (lines, .panic) ∧
    labelled "Required feature: " lines = ["OsmSchema-V0.6".toList] := by
  obtain ⟨head, frames, h0, h1, _⟩ := exForeignFile_is
  obtain ⟨lines, r, h2, -, -, h3, -, -, -, -, -, -, -, -, -, -, h4⟩ := C76_prints exZ _ (fun _ _ h => h) exForeignInfo head frames.flatten h1
    (by simp [exForeignInfo, Supported]) (by intro t ht; simp [exForeignInfo] at ht) (fun _ => []) "a.pbf".toList
  rw [if_neg (by simp [exForeignInfo])] at h4
  subst h4
  exact ⟨lines, by rw [h0, h2], h3⟩

/-- A header of the writer with all fields, printed. -/
example : (pbfInfo exZ (fun x => if x = 53 then "53".toList else "?".toList) "a.pbf".toList (blockBytes exZ .zlib [.header
    ⟨some ⟨53, 53, 53, 53⟩, ["OsmSchema-V0.6", "DenseNodes", "HistoricalInformation"], ["Sort.Type_then_ID"], some "w", some "s",
      some 1600000000, some (-5), some "u"⟩])) =
    (["PBF file: a.pbf", "Bounding box: left: 53, bottom: 53, right: 53, top: 53", "Required feature: OsmSchema-V0.6",
      "Required feature: DenseNodes", "Required feature: HistoricalInformation", "Optional feature: Sort.Type_then_ID",
      "Writing program: w", "Source: s", "osmosis_replication_timestamp: 2020-09-13T12:26:40Z", "osmosis_replication_sequence_number: -5",
      "osmosis_replication_base_url: u", "Feature queries", "Required 'HistoricalInformation': true", "Required 'DenseNodes': true",
      "Optional 'Sort.Type_then_ID': true"].map String.toList, .ok ()) := by
  decide +kernel

end OsmIo
