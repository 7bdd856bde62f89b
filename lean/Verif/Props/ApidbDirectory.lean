import Verif.Lemmas.TocDat
import Verif.Model.ApidbDirectory
import Verif.Props.ApidbToc
import Verif.Props.ApidbRoundTrip
/-!
# The directory of a dump (C64)
-/
set_option linter.unusedSimpArgs false
set_option linter.flexible false
namespace OsmIo
open OsmIo.Text OsmIo.Sql OsmIo.Apidb Spec

instance (s : Statement) : Decidable s.Ok :=
  decidable_of_iff (s.name ≠ [] ∧ ' ' ∉ s.name ∧ s.columns ≠ [] ∧ ∀ c ∈ s.columns, c ≠ [] ∧ ',' ∉ c ∧ '\n' ∉ c)
    ⟨fun ⟨a, b, c, d⟩ => ⟨a, b, c, d⟩, fun h => ⟨h.1, h.2, h.3, h.4⟩⟩

theorem toc_ok : ∀ s ∈ tocStatements, s.Ok := by decide +kernel

theorem toc_names : (tocStatements.map (·.name)).Nodup := by decide +kernel

theorem toc_lists : ∀ t ∈ ofInterest, ∃ s ∈ tocStatements, tableName t = some s.name := by decide +kernel

theorem toc_columns : ∀ t ∈ ofInterest, ∀ s ∈ tocStatements, tableName t = some s.name → s.columns = tocColumns t ∧ s.file.toList = tocFile t := by
  decide +kernel

theorem tail_copy : ¬ ascii "COPY " <:+: tailBytes := fun h => tail_noPair (List.IsInfix.trans (by decide) h)

/-- C64: the table of contents that the writer puts into a directory is found to have exactly the statements of
`tocStatements`, each with its data file. -/
theorem C64_statements : tableDefStrings (tableDefBytes tocDat.length tocDat) =
    .ok (tocStatements.map fun s => (s.text, s.file.toList)) := by
  rw [toc_bytes, C54_scan embedded tailBytes embedded_clear tail_copy]
  have hs := embedded_statements
  generalize embedded = es at hs
  generalize tocStatements = ss at hs
  induction hs with
  | nil => rfl
  | cons h _ ih =>
    simp only [List.map_cons, tableDefStrings, h.1, h.2, Wire.strOf_strBytes, Out.unwrap, Out.ok_bind, ih, String.toList_ofList]
    rfl

/-- C64: it is read as the ten tables of interest with the columns and files the reader needs. -/
theorem C64_toc_read : readTables tocDat = .ok dumpTables := by
  rw [toc_bytes]
  have hint : ∀ name t, tableName t = some name → t ∈ ofInterest := by
    intro name t hn
    cases t <;> first | (cases hn; done) | decide
  refine C54_dump tocStatements embedded tailBytes embedded_clear tail_copy embedded_statements toc_ok toc_lists
    (fun s hs t ht => toc_columns t (hint _ _ ht) s hs ht) ?_
  have := toc_names
  rw [List.Nodup, List.pairwise_map] at this
  refine this.imp ?_
  intro a b hab t h1 h2
  rw [h1] at h2
  exact hab (Option.some.inj h2)

/-- C64: the writer puts the rows of each table into the file that the table of contents names for the
table of that name; no two tables share a file, and none is written over the table of contents. -/
theorem C64_files : (∀ t, ∃ s ∈ tocStatements, s.name = writerName t ∧ s.file.toList = dataFile t) ∧
    (∀ t t', dataFile t = dataFile t' → t = t') ∧ (∀ t, dataFile t ≠ "toc.dat".toList) ∧
    (∀ t ∈ ofInterest, tableName t = some (writerName t)) := by
  have hall : ∀ t, t ∈ closeOrder := fun t => by cases t <;> decide
  refine ⟨fun t => ?_, fun t t' h => ?_, fun t => ?_, by decide +kernel⟩
  · have : ∀ t ∈ closeOrder, ∃ s ∈ tocStatements, s.name = writerName t ∧ s.file.toList = dataFile t := by decide +kernel
    exact this t (hall t)
  · have : (closeOrder.map dataFile).Nodup := by decide +kernel
    exact List.inj_on_of_nodup_map this (hall t) (hall t') h
  · have : ∀ t ∈ closeOrder, dataFile t ≠ "toc.dat".toList := by decide +kernel
    exact this t (hall t)

theorem foldl_write (f : Table → Bytes) (hinj : ∀ t t', dataFile t = dataFile t' → t = t') (ts : List Table) (d : Directory) (t : Table) :
    (ts.foldl (fun d t => d.write (dataFile t) (f t)) d) (dataFile t) = if t ∈ ts then some (f t) else d (dataFile t) := by
  induction ts generalizing d with
  | nil => simp
  | cons a ts ih =>
    rw [List.foldl_cons, ih]
    by_cases h : t ∈ ts
    · simp [h]
    · by_cases ha : t = a
      · subst ha; simp [h, Directory.write]
      · have : dataFile t ≠ dataFile a := fun e => ha (hinj _ _ e)
        simp [h, ha, Directory.write, this]

theorem foldl_write_other (f : Table → Bytes) (ts : List Table) (d : Directory) (n : Text) (hn : ∀ t, dataFile t ≠ n) :
    (ts.foldl (fun d t => d.write (dataFile t) (f t)) d) n = d n := by
  induction ts generalizing d with
  | nil => rfl
  | cons a ts ih =>
    rw [List.foldl_cons, ih]
    simp [Directory.write, (hn a).symm]

/-- C64: after a dump the directory holds the table of contents and, for each table, its rows; other files
are as they were, whatever was in the directory before. -/
theorem C64_directory (d : Directory) (files : Table → Text) :
    (d.create.flush files) "toc.dat".toList = some tocDat ∧
    (∀ t, (d.create.flush files) (dataFile t) = some (Wire.strBytes (String.ofList (files t)))) ∧
    (∀ n, n ≠ "toc.dat".toList → (∀ t, dataFile t ≠ n) → (d.create.flush files) n = d n) := by
  obtain ⟨-, hinj, htoc, -⟩ := C64_files
  have hall : ∀ t, t ∈ closeOrder := fun t => by cases t <;> decide
  refine ⟨?_, fun t => ?_, fun n h1 h2 => ?_⟩
  · unfold Directory.flush Directory.create
    rw [foldl_write_other _ _ _ _ htoc, foldl_write_other _ _ _ _ htoc]
    simp [Directory.write]
  · unfold Directory.flush
    rw [foldl_write _ hinj, if_pos (hall t)]
  · unfold Directory.flush Directory.create
    rw [foldl_write_other _ _ _ _ h2, foldl_write_other _ _ _ _ h2]
    exact if_neg h1

theorem interest_file : ∀ t ∈ ofInterest, tocFile t = dataFile t := by decide +kernel

theorem strBytes_inj {a b : Text} (h : Wire.strBytes (String.ofList a) = Wire.strBytes (String.ofList b)) : a = b := by
  have := congrArg Wire.strOf h
  rw [Wire.strOf_strBytes, Wire.strOf_strBytes] at this
  have := congrArg String.toList (Option.some.inj this)
  rwa [String.toList_ofList, String.toList_ofList] at this

/-- C64: a reader opens the directory of a dump without an error, finds the ten tables and, for each, a
sorted copy of the rows that were written to it. -/
theorem C64_open (le : Text → Text → Prop) (d : Directory) (files : Table → Text) (r : Out (Tables × (Table → Text))) :
    OpenDirectory le (d.create.flush files) r ↔ ∃ sorted, SortedCopy le files sorted ∧ r = .ok (dumpTables, sorted) := by
  obtain ⟨h1, h2, -⟩ := C64_directory d files
  have hfile : ∀ t d' f, dumpTables t = some (d', f) → f = dataFile t := by
    intro t d' f h
    by_cases ht : t ∈ ofInterest
    · rw [dumpTables_eq t ht] at h
      have h := congrArg Prod.snd (Option.some.inj h)
      have e := interest_file t ht
      generalize tocFile t = a at h e
      generalize dataFile t = b at e ⊢
      exact h.symm.trans e
    · unfold dumpTables at h
      rw [if_neg ht] at h
      cases h
  constructor
  · intro h
    cases h with
    | noToc e => rw [h1] at e; cases e
    | badToc e e' => rw [h1] at e; injection e with e; subst e; rw [C64_toc_read] at e'; cases e'
    | panicToc e e' => rw [h1] at e; injection e with e; subst e; rw [C64_toc_read] at e'; cases e'
    | noData e e' e'' e3 =>
      rw [h1] at e; injection e with e; subst e; rw [C64_toc_read] at e'; injection e' with e'; subst e'
      rw [hfile _ _ _ e'', h2] at e3; cases e3
    | @ok toc tables sorted e e' e'' =>
      rw [h1] at e; injection e with e; subst e; rw [C64_toc_read] at e'; injection e' with e'; subst e'
      refine ⟨sorted, ?_, rfl⟩
      intro t d' f ht
      obtain ⟨data, hd, hs⟩ := e'' t d' f ht
      rw [hfile _ _ _ ht, h2] at hd
      injection hd with hd
      rw [strBytes_inj hd]
      exact hs
  · rintro ⟨sorted, hs, rfl⟩
    refine .ok h1 C64_toc_read ?_
    intro t d' f ht
    exact ⟨files t, by rw [hfile _ _ _ ht, h2], hs t d' f ht⟩

/-- C64: a dump written to a directory is read back from that directory. -/
theorem C64_round_trip (z : Codec) (hz : Faithful z) (le : Text → Text → Prop) (uc cc : Int64 → Int64)
    (es : List Element) (files : Table → Text) (hd : Dump z uc cc es files) (hs : Storable es) (dir : Directory)
    (r : Out (Tables × (Table → Text))) (hr : OpenDirectory le (dir.create.flush files) r) :
    ∃ tables sorted it it' ns ns' ws ws' rs rs', r = .ok (tables, sorted) ∧ ElementIterator.new tables sorted = .ok it ∧
      Iterates (ElementIterator.next z) it (withSentinels ns' ws' rs') it' ∧
      ElementIterator.next z it' = .ok (none, it') ∧ Back z le es ns ns' ws ws' rs rs' := by
  obtain ⟨sorted, h1, rfl⟩ := (C64_open le dir files r).1 hr
  obtain ⟨it, it', ns, ns', ws, ws', rs, rs', h⟩ := C53_round_trip z hz le uc cc es files sorted hd hs h1
  exact ⟨_, sorted, it, it', ns, ns', ws, ws', rs, rs', rfl, h⟩

end OsmIo
