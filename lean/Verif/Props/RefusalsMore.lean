import Verif.Props.Refusals
import Verif.Props.Counting
import Verif.Props.ApidbToc
/-!
# More refusals: a damaged first block (C17, C61, C62, C72), malformed tables of contents (C54)
-/
namespace OsmIo
open Text Sql Apidb Spec

/-! ## A damaged first block -/

/-- C17. Opening a file whose first block is damaged panics. -/
theorem C17_damaged_first (z : Zlib) (inflates : Format.Inflates) (hz : ∀ c d, inflates c d → z.stream c = d)
    (bad rest : Bytes) (hbad : Format.IsDamagedFrame inflates bad) : openReader z (bad ++ rest) = .panic := by
  obtain ⟨t, blob, hf, herr⟩ := damaged_refused hz hbad
  rw [C17_panic_iff]
  exact (frame_refused hf (by simp [herr]) (file := bad ++ rest) (pre := []) (post := rest) rfl (it := {}) rfl).1

/-- C61. So does `pbf-io`. -/
theorem C61_damaged_first (z : Zlib) (inflates : Format.Inflates) (hz : ∀ c d, inflates c d → z.stream c = d)
    (bad rest : Bytes) (hbad : Format.IsDamagedFrame inflates bad) (keep : Element → Bool) (program : String) (c : CompressionType)
    (r : Out Bytes) : PbfIo z keep program c (bad ++ rest) r ↔ r = .panic := by
  unfold PbfIo
  rw [C17_damaged_first z inflates hz bad rest hbad]

/-- C62. So does `pbf-to-apidb`. -/
theorem C62_damaged_first (z : Zlib) (inflates : Format.Inflates) (hz : ∀ c d, inflates c d → z.stream c = d)
    (bad rest : Bytes) (hbad : Format.IsDamagedFrame inflates bad) (cod : Codec) (userClock changesetClock : Int64 → Int64)
    (r : Out (Table → Text)) : PbfToApidb z cod userClock changesetClock (bad ++ rest) r ↔ r = .panic := by
  unfold PbfToApidb
  rw [C17_damaged_first z inflates hz bad rest hbad]

/-- C72. So do the two counting programs. -/
theorem C72_damaged_first (z : Zlib) (inflates : Format.Inflates) (hz : ∀ c d, inflates c d → z.stream c = d)
    (bad rest : Bytes) (hbad : Format.IsDamagedFrame inflates bad) :
    (∀ r, CountPbf z (bad ++ rest) r ↔ r = .panic) ∧ ∀ T r, ParallelCountPbf z (bad ++ rest) T r ↔ r = .panic := by
  unfold CountPbf ParallelCountPbf
  rw [C17_damaged_first z inflates hz bad rest hbad]
  exact ⟨fun _ => Iff.rfl, fun _ _ => Iff.rfl⟩

/-- The damaged frame of `C31` at the start of a file. -/
example : openReader exZ (exDamaged ++ [1, 2]) = .panic :=
  C17_damaged_first exZ _ (fun _ _ h => h) _ _ exDamaged_is

/-! ## Tables of contents -/

/-- The form of the text between `COPY ` and ` FROM stdin`. -/
def CopyForm (s name body : Text) : Prop :=
  s = name ++ [' ', '('] ++ body ++ [')'] ∧ name ≠ [] ∧ ' ' ∉ name ∧ body ≠ [] ∧ '\n' ∉ body

/-- C54. Exactly the texts `name (columns)` are taken as definitions of tables. -/
theorem C54_definition (s name body : Text) : captures s = some (name, body) ↔ CopyForm s name body := by
  constructor
  · intro h
    unfold captures at h
    simp only at h
    split at h
    · rename_i rest hd
      split at h
      · rename_i hc
        obtain ⟨h1, h2, h3, h4⟩ := hc
        injection h with h
        injection h with ha hb
        subst ha hb
        refine ⟨?_, h1, ?_, h3, h4⟩
        · have e : rest.dropLast ++ [')'] = rest := List.dropLast_append_getLast? ')' h2
          have e2 := List.takeWhile_append_dropWhile (p := (· ≠ ' ')) (l := s)
          rw [hd, ← e] at e2
          rw [List.append_assoc, List.append_assoc]
          exact e2.symm
        · intro hm
          have := List.all_takeWhile (p := (· ≠ ' ')) (l := s)
          rw [List.all_eq_true] at this
          simpa using this _ hm
      · cases h
    · cases h
  · rintro ⟨rfl, h1, h2, h3, h4⟩
    have := captures_text h1 h2 h3 h4
    simpa using this

theorem tableDefStrings_ok {es : List (Bytes × Bytes)} (h : ∀ e ∈ es, (∃ s, e.1 = Wire.strBytes s) ∧ ∃ f, e.2 = Wire.strBytes f) :
    ∃ ss, tableDefStrings es = .ok ss ∧ List.Forall₂ (fun e s => e.1 = Wire.strBytes (String.ofList s.1)) es ss := by
  induction es with
  | nil => exact ⟨[], rfl, .nil⟩
  | cons e es ih =>
    obtain ⟨ss, h1, h2⟩ := ih fun e he => h e (by simp [he])
    obtain ⟨⟨s, hs⟩, ⟨f, hf⟩⟩ := h e (by simp)
    obtain ⟨a, b⟩ := e
    subst hs hf
    refine ⟨(s.toList, f.toList) :: ss, ?_, .cons (by simp) h2⟩
    simp only [tableDefStrings, Wire.strOf_strBytes, h1, Out.unwrap, Out.ok_bind]
    rfl

theorem tableDefStrings_panic {es : List (Bytes × Bytes)} (h : ∃ e ∈ es, ¬ ∃ s, e.1 = Wire.strBytes s) :
    tableDefStrings es = .panic := by
  induction es with
  | nil => simp at h
  | cons e es ih =>
    obtain ⟨a, b⟩ := e
    simp only [tableDefStrings]
    cases ha : Wire.strOf a with
    | none => rfl
    | some s =>
      cases hb : Wire.strOf b with
      | none => rfl
      | some f =>
        have := ih (by
          obtain ⟨e, he, hn⟩ := h
          rcases List.mem_cons.1 he with rfl | he
          · exact absurd ⟨s, (Wire.strBytes_of_strOf ha).symm⟩ hn
          · exact ⟨e, he, hn⟩)
        rw [this]; rfl

theorem addTables_append (tables : Tables) (as bs : List (Text × Text)) :
    addTables tables (as ++ bs) = addTables tables as >>= fun t => addTables t bs := by
  induction as generalizing tables with
  | nil => rfl
  | cons a as ih =>
    obtain ⟨x, y⟩ := a
    simp only [List.cons_append, addTables]
    cases captures x with
    | none => rfl
    | some p =>
      obtain ⟨name, body⟩ := p
      simp only [Out.unwrap, Out.ok_bind]
      cases tableOf name with
      | none => exact ih tables
      | some t =>
        simp only
        cases TableDef.new t (splitComma body) with
        | ok d => exact ih _
        | err => rfl
        | panic => rfl

theorem addTables_good (tables : Tables) {as : List (Text × Text)}
    (h : ∀ a ∈ as, ∃ name body, CopyForm a.1 name body ∧ ∀ t, tableName t = some name → ∃ d, TableDef.new t (splitComma body) = .ok d) :
    ∃ tables', addTables tables as = .ok tables' := by
  induction as generalizing tables with
  | nil => exact ⟨_, rfl⟩
  | cons a as ih =>
    obtain ⟨name, body, h1, h2⟩ := h a (by simp)
    obtain ⟨x, y⟩ := a
    simp only [addTables, (C54_definition _ _ _).2 h1, Out.unwrap, Out.ok_bind]
    cases ht : tableOf name with
    | none => exact ih tables fun a ha => h a (by simp [ha])
    | some t =>
      obtain ⟨d, hd⟩ := h2 t ((tableOf_iff _ _).1 ht)
      simp only [hd, Out.ok_bind]
      exact ih _ fun a ha => h a (by simp [ha])

/-- C54. A table of contents with a statement that is not UTF-8: a panic. -/
theorem C54_not_utf8 (es : List TocEntry) (tail : Bytes) (h : ∀ e ∈ es, e.Clear) (ht : ¬ ascii "COPY " <:+: tail)
    (hbad : ∃ e ∈ es, ¬ ∃ s, e.definition = Wire.strBytes s) : readTables (tocBytes es tail) = .panic := by
  unfold readTables
  rw [C54_scan es tail h ht, tableDefStrings_panic]
  · rfl
  · obtain ⟨e, he, hn⟩ := hbad
    exact ⟨_, List.mem_map_of_mem he, hn⟩

theorem forall₂_append_left {α β : Type} {R : α → β → Prop} {as bs : List α} {cs : List β} (h : List.Forall₂ R (as ++ bs) cs) :
    ∃ c d, List.Forall₂ R as c ∧ List.Forall₂ R bs d ∧ cs = c ++ d := by
  induction as generalizing cs with
  | nil => exact ⟨[], cs, .nil, h, rfl⟩
  | cons a as ih =>
    cases h with
    | cons h1 h2 =>
      obtain ⟨c, d, g1, g2, rfl⟩ := ih h2
      exact ⟨_ :: c, d, .cons h1 g1, g2, rfl⟩

theorem forall₂_mem_right {α β : Type} {R : α → β → Prop} {as : List α} {bs : List β} (h : List.Forall₂ R as bs) {b : β} (hb : b ∈ bs) :
    ∃ a ∈ as, R a b := by
  induction h with
  | nil => cases hb
  | cons h1 _ ih =>
    rcases List.mem_cons.1 hb with rfl | hb
    · exact ⟨_, by simp, h1⟩
    · obtain ⟨a, ha, hr⟩ := ih hb
      exact ⟨a, by simp [ha], hr⟩

/-- C54. A table of contents with a statement of another form than `name (columns)` after good ones: a panic. -/
theorem C54_malformed (good others : List TocEntry) (bad : TocEntry) (tail : Bytes) (h : ∀ e ∈ good ++ bad :: others, e.Clear)
    (ht : ¬ ascii "COPY " <:+: tail)
    (htext : ∀ e ∈ good ++ bad :: others, (∃ s, e.definition = Wire.strBytes s) ∧ ∃ f, e.digits ++ ascii ".dat" = Wire.strBytes f)
    (hgood : ∀ e ∈ good, ∃ s : Statement, e.definition = Wire.strBytes (String.ofList s.text) ∧ s.Ok ∧
      ∀ t, tableName t = some s.name → ∃ d, TableDef.new t s.columns = .ok d)
    (text : Text) (hb : bad.definition = Wire.strBytes (String.ofList text)) (hbad : ¬ ∃ name body, CopyForm text name body) :
    readTables (tocBytes (good ++ bad :: others) tail) = .panic := by
  unfold readTables
  rw [C54_scan _ tail h ht]
  obtain ⟨ss, h1, h2⟩ := tableDefStrings_ok (es := (good ++ bad :: others).map fun e => (e.definition, e.digits ++ ascii ".dat")) (by
    intro e he
    obtain ⟨e', he', rfl⟩ := List.mem_map.1 he
    exact htext e' he')
  rw [h1, Out.ok_bind]
  rw [List.map_append, List.map_cons] at h2
  obtain ⟨s1, s2, g1, g2, rfl⟩ := forall₂_append_left h2
  cases g2 with
  | @cons _ sb _ s2 g2 g3 =>
  rw [addTables_append]
  have inj : ∀ {a b : String}, Wire.strBytes a = Wire.strBytes b → a = b := by
    intro a b hab
    have := Wire.strOf_strBytes a
    rw [hab, Wire.strOf_strBytes] at this
    injection this with this
    exact this.symm
  obtain ⟨tables', hok⟩ := addTables_good (fun _ => none) (as := s1) (by
    intro a ha
    obtain ⟨e, he, hea⟩ := forall₂_mem_right g1 ha
    obtain ⟨e', he', rfl⟩ := List.mem_map.1 he
    obtain ⟨s, hs, hsok, hcols⟩ := hgood e' he'
    have hx : a.1 = s.text := by
      have := inj (hea.symm.trans hs)
      exact String.ofList_injective this
    have hbd := body_ok hsok.columns (fun c hc => ⟨(hsok.column c hc).1, (hsok.column c hc).2.2⟩)
    refine ⟨s.name, List.intercalate [',', ' '] s.columns, ⟨by rw [hx]; simp [Statement.text], hsok.name, hsok.space, hbd.1, hbd.2⟩, ?_⟩
    intro t hname
    rw [splitComma_join hsok.columns fun c hc => (hsok.column c hc).2.1]
    exact hcols t hname)
  rw [hok, Out.ok_bind]
  have hsb : sb.1 = text := String.ofList_injective (inj (g2.symm.trans hb))
  obtain ⟨x, y⟩ := sb
  simp only at hsb
  subst hsb
  have hcap : captures x = none := by
    cases hc : captures x with
    | none => rfl
    | some p => exact absurd ⟨p.1, p.2, (C54_definition _ _ _).1 hc⟩ hbad
  simp only [addTables, hcap]
  rfl

/-- A definition, and a text that is none. -/
example : CopyForm "public.acls (id, k)".toList "public.acls".toList "id, k".toList ∧
    ¬ ∃ name body, CopyForm "public.acls id".toList name body := by
  refine ⟨⟨by decide +kernel, by decide +kernel, by decide +kernel, by decide +kernel, by decide +kernel⟩, ?_⟩
  rintro ⟨name, body, h⟩
  have e : captures "public.acls id".toList = none := by decide +kernel
  rw [(C54_definition _ _ _).2 h] at e
  cases e

end OsmIo
