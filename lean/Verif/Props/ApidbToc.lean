import Verif.Lemmas.ApidbToc
import Verif.Lemmas.Wire
import Verif.Spec.ApidbToc
/-!
# Reading the table of contents of a dump (C54)
-/
namespace OsmIo
open Text Sql Apidb Spec

theorem findPat_first {pat pre rest : Bytes} (hp : pat ≠ []) (h : ¬ pat <:+: pre ++ pat.dropLast) :
    findPat pat (pre ++ pat ++ rest) = some (pre, rest) := by
  induction pre with
  | nil =>
    cases pat with
    | nil => exact absurd rfl hp
    | cons b bs =>
      have e : (b :: bs).isPrefixOf (b :: (bs ++ rest)) = true := by
        rw [List.isPrefixOf_iff_prefix]; exact ⟨rest, rfl⟩
      simp only [List.nil_append, List.cons_append, findPat, e, if_true]
      simp
  | cons b pre ih =>
    have hno : pat.isPrefixOf (b :: (pre ++ pat ++ rest)) = false := by
      rw [Bool.eq_false_iff]
      intro hh
      rw [List.isPrefixOf_iff_prefix] at hh
      apply h
      have e1 : pat = (b :: (pre ++ pat ++ rest)).take pat.length := List.prefix_iff_eq_take.1 hh
      have e2 : (b :: (pre ++ pat ++ rest)).take pat.length = (b :: pre ++ pat.dropLast).take pat.length := by
        obtain ⟨q, x, rfl⟩ : ∃ q x, pat = q ++ [x] := ⟨pat.dropLast, pat.getLast hp, (List.dropLast_append_getLast hp).symm⟩
        have : b :: (pre ++ (q ++ [x]) ++ rest) = (b :: pre ++ q) ++ (x :: rest) := by simp
        rw [this, List.dropLast_concat, List.take_append_of_le_length]
        simp
      rw [e2] at e1
      exact (List.prefix_iff_eq_take.2 e1).isInfix
    simp only [List.cons_append, findPat, hno]
    rw [ih (fun hh => h (hh.trans (List.suffix_cons _ _).isInfix))]
    rfl

theorem findPat_none {pat l : Bytes} (h : ¬ pat <:+: l) : findPat pat l = none := by
  induction l with
  | nil => rfl
  | cons b l ih =>
    have hno : pat.isPrefixOf (b :: l) = false := by
      rw [Bool.eq_false_iff]
      intro hh
      rw [List.isPrefixOf_iff_prefix] at hh
      exact h hh.isInfix
    simp only [findPat, hno, ih (fun hh => h (hh.trans (List.suffix_cons _ _).isInfix))]
    rfl

theorem takeWhile_digits {mid digits : Bytes} (hd : ∀ b ∈ digits, 48 ≤ b ∧ b ≤ 57)
    (hm : ∀ b, mid.getLast? = some b → ¬ (48 ≤ b ∧ b ≤ 57)) :
    (((mid ++ digits).reverse.takeWhile isDigit).reverse) = digits := by
  have e : (mid ++ digits).reverse.takeWhile isDigit = digits.reverse := by
    rw [List.reverse_append, List.takeWhile_append_of_pos]
    · have : mid.reverse.takeWhile isDigit = [] := by
        rw [← List.head?_reverse] at hm
        cases hr : mid.reverse with
        | nil => rfl
        | cons b bs =>
          have := hm b (by rw [hr]; rfl)
          rw [List.takeWhile_cons, if_neg]
          simpa [isDigit] using this
      rw [this, List.append_nil]
    · intro b hb
      have := hd b (List.mem_reverse.1 hb)
      simpa [isDigit] using this
  rw [e, List.reverse_reverse]

/-- C54, scanning: each statement of the table of contents is found, in order, with its data file. -/
theorem C54_scan (es : List TocEntry) (tail : Bytes) (h : ∀ e ∈ es, e.Clear) (ht : ¬ ascii "COPY " <:+: tail) :
    tableDefBytes (tocBytes es tail).length (tocBytes es tail) =
      es.map fun e => (e.definition, e.digits ++ ascii ".dat") := by
  suffices hs : ∀ fuel, es.length < fuel → tableDefBytes fuel (tocBytes es tail) =
      es.map fun e => (e.definition, e.digits ++ ascii ".dat") by
    by_cases he : es = [] ∧ tail = []
    · obtain ⟨rfl, rfl⟩ := he; rfl
    · apply hs
      have : ∀ es : List TocEntry, es.length + tail.length ≤ (tocBytes es tail).length := by
        intro es
        induction es with
        | nil => simp [tocBytes]
        | cons e es ih =>
          simp only [tocBytes, List.flatMap_cons, List.append_assoc, List.length_append, List.length_cons, TocEntry.bytes] at ih ⊢
          simp only [List.length_nil]
          omega
      have h2 : ∀ es : List TocEntry, es ≠ [] → es.length < (tocBytes es tail).length := by
        intro es hne
        cases es with
        | nil => exact absurd rfl hne
        | cons e es =>
          have := this es
          simp only [tocBytes, List.flatMap_cons, List.append_assoc, List.length_append, List.length_cons, TocEntry.bytes] at this ⊢
          simp only [List.length_nil]
          have : (ascii "COPY ").length = 5 := rfl
          omega
      cases es with
      | cons e es => exact h2 _ (by simp)
      | nil =>
        simp [tocBytes]
        cases tail with
        | nil => simp at he
        | cons => simp
  induction es with
  | nil =>
    intro fuel hf
    cases fuel with
    | zero => omega
    | succ f =>
      have e : tocBytes [] tail = tail := rfl
      rw [e, tableDefBytes, findPat_none ht]
      rfl
  | cons e es ih =>
    intro fuel hf
    cases fuel with
    | zero => omega
    | succ f =>
      have hc := h e (by simp)
      have ih := ih (fun x hx => h x (by simp [hx])) f (by simp at hf; omega)
      have e0 : tocBytes (e :: es) tail = e.before ++ ascii "COPY " ++ (e.definition ++ ascii " FROM stdin" ++
          ((e.middle ++ e.digits) ++ ascii ".dat" ++ (e.after :: tocBytes es tail))) := by
        simp [tocBytes, TocEntry.bytes]
      rw [e0, tableDefBytes, findPat_first (by decide) hc.copy]
      simp only
      rw [findPat_first (by decide) hc.stdin]
      simp only
      rw [findPat_first (by decide) hc.dat]
      simp only [List.drop_succ_cons, List.drop_zero]
      rw [ih, takeWhile_digits hc.digits hc.noDigit]
      rfl

theorem splitComma_cons_cols {col : Text} (h : ',' ∉ col) (rest : Text) :
    splitComma (col ++ ',' :: ' ' :: rest) = col :: splitComma rest := by
  induction col with
  | nil => rfl
  | cons c col ih =>
    simp only [List.mem_cons, not_or] at h
    have ih := ih h.2
    rw [List.cons_append, splitComma.eq_def]
    split
    · rename_i hh; cases hh
    · rename_i hh; simp at hh; exact absurd hh.1.symm h.1
    · rename_i c' cs' _ hh
      simp at hh
      obtain ⟨rfl, rfl⟩ := hh
      rw [ih]

theorem splitComma_last {col : Text} (h : ',' ∉ col) : splitComma col = [col] := by
  induction col with
  | nil => rfl
  | cons c col ih =>
    simp only [List.mem_cons, not_or] at h
    have ih := ih h.2
    rw [splitComma.eq_def]
    split
    · rename_i hh; cases hh
    · rename_i hh; simp at hh; exact absurd hh.1.symm h.1
    · rename_i c' cs' _ hh
      simp at hh
      obtain ⟨rfl, rfl⟩ := hh
      rw [ih]

/-- Splitting a list of column names. -/
theorem splitComma_join {cols : List Text} (hne : cols ≠ []) (h : ∀ c ∈ cols, ',' ∉ c) :
    splitComma (List.intercalate [',', ' '] cols) = cols := by
  induction cols with
  | nil => exact absurd rfl hne
  | cons c cols ih =>
    cases cols with
    | nil => simpa [List.intercalate] using splitComma_last (h c (by simp))
    | cons d cols =>
      have ih := ih (by simp) (fun x hx => h x (by simp [hx]))
      have e : List.intercalate [',', ' '] (c :: d :: cols) = c ++ ',' :: ' ' :: List.intercalate [',', ' '] (d :: cols) := by
        simp [List.intercalate, List.intersperse]
      rw [e, splitComma_cons_cols (h c (by simp)), ih]

/-- The captures of a definition. -/
theorem captures_text {name body : Text} (hn : name ≠ []) (hs : ' ' ∉ name) (hb : body ≠ []) (hl : '\n' ∉ body) :
    captures (name ++ ' ' :: '(' :: body ++ [')']) = some (name, body) := by
  have hp : ∀ a ∈ name, decide (a ≠ ' ') = true := by
    intro a ha; simp; rintro rfl; exact hs ha
  have e1 : (name ++ ' ' :: '(' :: body ++ [')']).takeWhile (· ≠ ' ') = name := by
    rw [List.append_assoc, List.takeWhile_append_of_pos hp]; simp
  have e2 : (name ++ ' ' :: '(' :: body ++ [')']).dropWhile (· ≠ ' ') = ' ' :: '(' :: (body ++ [')']) := by
    rw [List.append_assoc, List.dropWhile_append_of_pos hp]; simp
  unfold captures
  simp only [e1, e2]
  rw [if_pos]
  · simp
  · simp [hn, hb, hl]

theorem body_ok {cols : List Text} (hne : cols ≠ []) (h : ∀ c ∈ cols, c ≠ [] ∧ '\n' ∉ c) :
    List.intercalate [',', ' '] cols ≠ [] ∧ '\n' ∉ List.intercalate [',', ' '] cols := by
  induction cols with
  | nil => exact absurd rfl hne
  | cons c cols ih =>
    cases cols with
    | nil => simpa [List.intercalate] using h c (by simp)
    | cons d cols =>
      have ih := ih (by simp) (fun x hx => h x (by simp [hx]))
      have e : List.intercalate [',', ' '] (c :: d :: cols) = c ++ ',' :: ' ' :: List.intercalate [',', ' '] (d :: cols) := by
        simp [List.intercalate, List.intersperse]
      rw [e]
      refine ⟨by simp, ?_⟩
      simp only [List.mem_append, List.mem_cons, not_or]
      exact ⟨(h c (by simp)).2, by decide, by decide, ih.2⟩

theorem addTables_spec (ss : List Statement) (hok : ∀ s ∈ ss, s.Ok)
    (hcols : ∀ s ∈ ss, ∀ t, tableOf s.name = some t → ∃ d, TableDef.new t s.columns = .ok d)
    (hu : ss.Pairwise fun a b => ∀ t, tableOf a.name = some t → tableOf b.name ≠ some t) (tables : Tables) :
    ∃ tables', addTables tables (ss.map fun s => (s.text, s.file.toList)) = .ok tables' ∧
      (∀ s ∈ ss, ∀ t, tableOf s.name = some t → ∃ d, TableDef.new t s.columns = .ok d ∧ tables' t = some (d, s.file.toList)) ∧
      (∀ t, (∀ s ∈ ss, tableOf s.name ≠ some t) → tables' t = tables t) := by
  induction ss generalizing tables with
  | nil => exact ⟨tables, rfl, by simp, by simp⟩
  | cons s ss ih =>
    rw [List.pairwise_cons] at hu
    have hs := hok s (by simp)
    have hb := body_ok hs.columns (fun c hc => ⟨(hs.column c hc).1, (hs.column c hc).2.2⟩)
    have hcap : captures s.text = some (s.name, List.intercalate [',', ' '] s.columns) := captures_text hs.name hs.space hb.1 hb.2
    have hsp := splitComma_join hs.columns (fun c hc => (hs.column c hc).2.1)
    simp only [List.map_cons, addTables, hcap, Out.unwrap, Out.ok_bind]
    cases ht : tableOf s.name with
    | none =>
      simp only
      obtain ⟨tables', h1, h2, h3⟩ := ih (fun x hx => hok x (by simp [hx])) (fun x hx => hcols x (by simp [hx])) hu.2 tables
      refine ⟨tables', h1, ?_, ?_⟩
      · intro x hx t hxt
        rcases List.mem_cons.1 hx with rfl | hx
        · rw [ht] at hxt; cases hxt
        · exact h2 x hx t hxt
      · intro t hh
        exact h3 t fun x hx => hh x (by simp [hx])
    | some t =>
      simp only [hsp]
      obtain ⟨d, hd⟩ := hcols s (by simp) t ht
      simp only [hd, Out.ok_bind]
      obtain ⟨tables', h1, h2, h3⟩ := ih (fun x hx => hok x (by simp [hx])) (fun x hx => hcols x (by simp [hx])) hu.2
        (fun t' => if t' = t then some (d, s.file.toList) else tables t')
      refine ⟨tables', h1, ?_, ?_⟩
      · intro x hx t' hxt
        rcases List.mem_cons.1 hx with rfl | hx
        · rw [ht] at hxt
          injection hxt with hxt
          subst hxt
          refine ⟨d, hd, ?_⟩
          rw [h3 t fun y hy => hu.1 y hy t ht, if_pos rfl]
        · exact h2 x hx t' hxt
      · intro t' hh
        rw [h3 t' fun x hx => hh x (by simp [hx]), if_neg]
        rintro rfl
        exact hh s (by simp) ht

theorem tableOf_iff (name : Text) (t : Table) : tableOf name = some t ↔ tableName t = some name := by
  constructor
  · intro h
    unfold tableOf at h
    repeat' (split at h <;> [(injection h with h; subst h; rename_i hn; rw [hn]; rfl); skip])
    cases h
  · intro h
    cases t <;> simp only [tableName] at h <;> first | (injection h with h; subst h; decide +kernel) | cases h

/-- C54: reading the table of contents finds each table of interest that it lists, with the positions of
its columns and its data file, and no other; statements about other tables are ignored. -/
theorem C54_tables (ss : List Statement) (es : List TocEntry) (tail : Bytes) (h : ∀ e ∈ es, e.Clear)
    (ht : ¬ ascii "COPY " <:+: tail)
    (hs : List.Forall₂ (fun e s => e.definition = Wire.strBytes (String.ofList (Statement.text s)) ∧
      e.digits ++ ascii ".dat" = Wire.strBytes (Statement.file s)) es ss)
    (hok : ∀ s ∈ ss, s.Ok)
    (hcols : ∀ s ∈ ss, ∀ t, tableName t = some s.name → ∃ d, TableDef.new t s.columns = .ok d)
    (hu : ss.Pairwise fun a b => ∀ t, tableName t = some a.name → tableName t ≠ some b.name) :
    ∃ tables, readTables (tocBytes es tail) = .ok tables ∧
      (∀ s ∈ ss, ∀ t, tableName t = some s.name → ∃ d, TableDef.new t s.columns = .ok d ∧ tables t = some (d, s.file.toList)) ∧
      (∀ t, (∀ s ∈ ss, tableName t ≠ some s.name) → tables t = none) := by
  simp only [ne_eq, ← tableOf_iff] at hcols hu ⊢
  have hstr : tableDefStrings (es.map fun e => (e.definition, e.digits ++ ascii ".dat")) =
      .ok (ss.map fun s => (s.text, s.file.toList)) := by
    clear h hok hcols hu
    induction hs with
    | nil => rfl
    | cons h _ ih =>
      simp only [List.map_cons, tableDefStrings, h.1, h.2, Wire.strOf_strBytes, Out.unwrap, Out.ok_bind, ih, String.toList_ofList]
      rfl
  obtain ⟨tables, h1, h2, h3⟩ := addTables_spec ss hok hcols hu (fun _ => none)
  refine ⟨tables, ?_, h2, h3⟩
  unfold readTables
  rw [C54_scan es tail h ht, hstr]
  exact h1

/-- C54: a table of contents that lists the ten tables of interest as the embedded one does is read as
`dumpTables`, whatever else it lists. -/
theorem C54_dump (ss : List Statement) (es : List TocEntry) (tail : Bytes) (h : ∀ e ∈ es, e.Clear)
    (ht : ¬ ascii "COPY " <:+: tail)
    (hs : List.Forall₂ (fun e s => e.definition = Wire.strBytes (String.ofList (Statement.text s)) ∧
      e.digits ++ ascii ".dat" = Wire.strBytes (Statement.file s)) es ss)
    (hok : ∀ s ∈ ss, s.Ok)
    (hall : ∀ t ∈ ofInterest, ∃ s ∈ ss, tableName t = some s.name)
    (hcols : ∀ s ∈ ss, ∀ t, tableName t = some s.name → s.columns = tocColumns t ∧ s.file.toList = tocFile t)
    (hu : ss.Pairwise fun a b => ∀ t, tableName t = some a.name → tableName t ≠ some b.name) :
    readTables (tocBytes es tail) = .ok dumpTables := by
  have hint : ∀ name t, tableName t = some name → t ∈ ofInterest := by
    intro name t hn
    cases t <;> first | (cases hn; done) | decide
  have hnew : ∀ t ∈ ofInterest, TableDef.new t (tocColumns t) = .ok (dumpDef t) := by decide +kernel
  obtain ⟨tables, h1, h2, h3⟩ := C54_tables ss es tail h ht hs hok
    (fun s hm t hn => ⟨_, by rw [(hcols s hm t hn).1]; exact hnew t (hint _ _ hn)⟩) hu
  rw [h1]
  congr 1
  funext t
  by_cases hi : t ∈ ofInterest
  · obtain ⟨s, hm, hn⟩ := hall t hi
    obtain ⟨d, hd, e⟩ := h2 s hm t hn
    rw [(hcols s hm t hn).1, hnew t hi] at hd
    injection hd with hd
    rw [e, dumpTables_eq t hi, hd, (hcols s hm t hn).2]
  · rw [h3 t fun s hm hn => hi (hint _ _ hn)]
    unfold dumpTables
    rw [if_neg hi]

/-- C54: a statement about a table of interest that lacks a required column is an error. -/
theorem C54_missing_column (t : Table) (cols : List Text) (v : Text) (hv : v ∈ requiredColumns t) (h : v ∉ cols) :
    TableDef.new t cols = .err := by
  unfold TableDef.new
  have : ∀ l : List Text, v ∈ l → allSome (fun v => fieldIndex v cols) l = none := by
    intro l hl
    induction l with
    | nil => simp at hl
    | cons a l ih =>
      simp only [allSome]
      rcases List.mem_cons.1 hl with rfl | hl
      · have : fieldIndex v cols = none := by
          unfold fieldIndex
          rw [List.findIdx?_eq_none_iff]
          intro x hx
          simp
          rintro rfl
          exact h hx
        rw [this]
      · rw [ih hl]
        cases fieldIndex a cols <;> rfl
  rw [this _ hv]
  rfl

/-- Two statements, the first about a table the reader ignores; a name in the second contains `COP`. -/
def exEntries : List TocEntry :=
  [⟨[0, 67, 79, 80], ascii "public.acls (id, k, v)", ascii ";\n\x00", ascii "4204", 0⟩,
   ⟨ascii "12 COP", ascii "public.node_tags (version, node_id, k, v)", ascii ";\n\x00.da", ascii "77", 0⟩]

/-- `C54_scan` on the example. -/
example : (∀ e ∈ exEntries, e.Clear) ∧ ¬ ascii "COPY " <:+: (ascii "COPY") ∧
    tableDefBytes (tocBytes exEntries (ascii "COPY")).length (tocBytes exEntries (ascii "COPY")) =
      [(ascii "public.acls (id, k, v)", ascii "4204.dat"), (ascii "public.node_tags (version, node_id, k, v)", ascii "77.dat")] := by
  refine ⟨?_, by decide +kernel, by decide +kernel⟩
  intro e he
  simp only [exEntries, List.mem_cons, List.not_mem_nil, or_false] at he
  rcases he with rfl | rfl <;>
    exact ⟨by decide +kernel, by decide +kernel, by decide +kernel, by decide +kernel, by decide +kernel⟩

/-- The hypotheses of `C54_tables` about the statements hold for the example. -/
example : List.Forall₂ (fun e s => e.definition = Wire.strBytes (String.ofList (Statement.text s)) ∧
      e.digits ++ ascii ".dat" = Wire.strBytes (Statement.file s)) exEntries
    [⟨"public.acls".toList, ["id".toList, "k".toList, "v".toList], "4204.dat"⟩,
     ⟨"public.node_tags".toList, ["version".toList, "node_id".toList, "k".toList, "v".toList], "77.dat"⟩] ∧
    TableDef.new .nodeTags ["version".toList, "node_id".toList, "k".toList, "v".toList] = .ok ⟨[1, 0, 2, 3], [(2, .integer), (1, .integer), (3, .string)]⟩ :=
  ⟨.cons (by decide +kernel) (.cons (by decide +kernel) .nil), by decide +kernel⟩

end OsmIo
