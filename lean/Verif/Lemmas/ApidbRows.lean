import Verif.Lemmas.ApidbWriter
/-! The rows a writer writes: no control characters in the columns, and a first column that is not
mistaken for an end marker. -/
namespace OsmIo.Apidb
open OsmIo.Text OsmIo.Sql OsmIo.Spec

/-- No character below the space. -/
def Printable (t : Text) : Prop := ∀ c ∈ t, 32 ≤ c.toNat

theorem Printable.newline {t : Text} (h : Printable t) : '\n' ∉ t := fun hm => by have := h _ hm; revert this; decide
theorem Printable.tab {t : Text} (h : Printable t) : '\t' ∉ t := fun hm => by have := h _ hm; revert this; decide

theorem Printable.append {s t : Text} (hs : Printable s) (ht : Printable t) : Printable (s ++ t) := by
  intro c hc
  rcases List.mem_append.1 hc with h | h
  · exact hs c h
  · exact ht c h

theorem Printable.cons {c : Char} {t : Text} (hc : 32 ≤ c.toNat) (ht : Printable t) : Printable (c :: t) := by
  intro d hd
  rcases List.mem_cons.1 hd with rfl | h
  · exact hc
  · exact ht d h

theorem printable_num (n : Int) : Printable (num n) := by
  intro c hc
  rcases showInt_chars n c hc with rfl | h
  · decide
  · omega

theorem printable_pad (w n : Nat) : Printable (padNat w n) := by
  intro c hc
  have := padNat_digit w n c hc
  omega

theorem printable_year (y : Int) : Printable (showYear y) := by
  unfold showYear
  split
  · exact printable_pad _ _
  · split <;> exact .cons (by decide) (printable_pad _ _)

theorem printable_seconds (s : Int) : Printable (showSeconds s) :=
  .append (.append (.append (.append (.append (printable_year _) (.cons (by decide) (printable_pad _ _)))
    (.cons (by decide) (printable_pad _ _))) (.cons (by decide) (printable_pad _ _)))
    (.cons (by decide) (printable_pad _ _))) (.cons (by decide) (printable_pad _ _))

theorem printable_time (t : Int64) : Printable (time t) := printable_seconds _
theorem printable_clock (t : Int64) : Printable (clockText t) :=
  .append (printable_seconds _) (.cons (by decide) (printable_pad _ _))
theorem printable_flag (b : Bool) : Printable (flag b) := by cases b <;> (unfold Printable flag; decide)
theorem printable_null : Printable null := by unfold Printable null; decide
theorem printable_memberType (m : Member) : Printable (memberType m) := by
  cases m
  · show Printable ['N', 'o', 'd', 'e']; unfold Printable; decide
  · show Printable ['W', 'a', 'y']; unfold Printable; decide
  · show Printable ['R', 'e', 'l', 'a', 't', 'i', 'o', 'n']; unfold Printable; decide

/-- A row whose columns do not contain the character `x` and whose first column starts with something
other than a backslash. -/
def RowOk (x : Char) (cols : List Text) : Prop :=
  (∃ c cs rest, cols = (c :: cs) :: rest ∧ c ≠ '\\') ∧ ∀ col ∈ cols, x ∉ col

theorem num_head (n : Int) : ∃ c cs, num n = c :: cs ∧ c ≠ '\\' := by
  cases h : num n with
  | nil => exact absurd h (showInt_ne_nil n)
  | cons c cs =>
    refine ⟨c, cs, rfl, ?_⟩
    rintro rfl
    rcases showInt_chars n '\\' (by unfold num at h; rw [h]; simp) with h | h
    · exact absurd h (by decide)
    · revert h; decide

theorem rowOk_num {x : Char} {n : Int} {rest : List Text} (hx : ∀ t, Printable t → x ∉ t)
    (h : ∀ col ∈ rest, x ∉ col) : RowOk x (num n :: rest) := by
  obtain ⟨c, cs, e, hc⟩ := num_head n
  refine ⟨⟨c, cs, rest, by rw [e], hc⟩, ?_⟩
  intro col hcol
  rcases List.mem_cons.1 hcol with rfl | hcol
  · exact hx _ (printable_num n)
  · exact h col hcol

/-- The rows of the history tables. -/
theorem histRows_ok {x : Char} (hx : ∀ t, Printable t → x ∉ t) {z : Codec} (hz : ∀ s, x ∉ z.escape s) (t : Table)
    (e : Element) : ∀ r ∈ histRows z t e, RowOk x r := by
  have pn := fun n => hx _ (printable_num n)
  have pf := fun b => hx _ (printable_flag b)
  have pt := fun b => hx _ (printable_time b)
  have p0 := hx _ printable_null
  have pm := fun m => hx _ (printable_memberType m)
  intro r hr
  cases e <;> cases t <;> simp only [histRows, List.not_mem_nil, List.mem_singleton] at hr
  all_goals first
    | (subst hr
       refine rowOk_num hx ?_
       simp only [List.mem_cons, List.not_mem_nil, or_false, forall_eq_or_imp, forall_eq, pn, pf, pt, p0,
         not_false_eq_true, and_self])
    | (simp only [nodeTagRows, wayTagRows, relationTagRows, List.mem_map] at hr
       obtain ⟨tag, _, rfl⟩ := hr
       refine rowOk_num hx ?_
       simp only [List.mem_cons, List.not_mem_nil, or_false, forall_eq_or_imp, forall_eq, pn, hz,
         not_false_eq_true, and_self])
    | (simp only [wayNodeRows, relationMemberRows, List.mem_map] at hr
       obtain ⟨⟨p, q⟩, _, rfl⟩ := hr
       refine rowOk_num hx ?_
       simp only [List.mem_cons, List.not_mem_nil, or_false, forall_eq_or_imp, forall_eq, pn, hz, pm,
         not_false_eq_true, and_self])

/-- The rows of the current tables. -/
theorem eventRows_ok {x : Char} (hx : ∀ t, Printable t → x ∉ t) {z : Codec} (hz : ∀ s, x ∉ z.escape s) (t : Table)
    (e : Element) (ev : Event) (hev : event z t e = some ev) : ∀ r ∈ ev.rows, RowOk x r := by
  have pn := fun n => hx _ (printable_num n)
  have pf := fun b => hx _ (printable_flag b)
  have pt := fun b => hx _ (printable_time b)
  have p0 := hx _ printable_null
  have pm := fun m => hx _ (printable_memberType m)
  intro r hr
  cases e <;> cases t <;> simp only [event, Option.some.injEq, reduceCtorEq] at hev
  all_goals
    subst hev
    first
    | (simp only [List.mem_singleton] at hr
       subst hr
       refine rowOk_num hx ?_
       simp only [List.mem_cons, List.not_mem_nil, or_false, forall_eq_or_imp, forall_eq, pn, pf, pt, p0,
         not_false_eq_true, and_self])
    | (simp only [currentTagRows, List.mem_map] at hr
       obtain ⟨tag, _, rfl⟩ := hr
       refine rowOk_num hx ?_
       simp only [List.mem_cons, List.not_mem_nil, or_false, forall_eq_or_imp, forall_eq, pn, hz,
         not_false_eq_true, and_self])
    | (simp only [currentWayNodeRows, currentRelationMemberRows, List.mem_map] at hr
       obtain ⟨⟨p, q⟩, _, rfl⟩ := hr
       refine rowOk_num hx ?_
       simp only [List.mem_cons, List.not_mem_nil, or_false, forall_eq_or_imp, forall_eq, pn, hz, pm,
         not_false_eq_true, and_self])

/-- Whatever the order of the events, the current table holds rows of events. -/
theorem runCur_rows (P : List Text → Prop) (c : CurrentObject) (prev : List (List Text)) (evs : List Event)
    (hc : c.last.getD [] = textOf prev) (hp : ∀ r ∈ prev, P r) (he : ∀ ev ∈ evs, ∀ r ∈ ev.rows, P r) :
    ∃ rows, (∀ r ∈ rows, P r) ∧
      (runCur c evs).1 ++ ((runCur c evs).2.last.getD []).flatten = tableText rows := by
  induction evs generalizing c prev with
  | nil => exact ⟨prev, hp, by simp [runCur, hc, textOf_flatten]⟩
  | cons ev evs ih =>
    have h2 : ∃ next : List (List Text), (stepCur c ev).2.last.getD [] = textOf next ∧ ∀ r ∈ next, P r := by
      unfold stepCur CurrentObject.setLast
      simp only [CurrentObject.setLastId]
      by_cases hv : ev.visible = true
      · refine ⟨ev.rows, ?_, he ev (by simp)⟩
        split <;> simp [hv]
      · refine ⟨[], ?_, by simp⟩
        split <;> simp [hv, textOf]
    have h1 : ∃ out : List (List Text), (stepCur c ev).1 = tableText out ∧ ∀ r ∈ out, P r := by
      unfold stepCur CurrentObject.setLast
      simp only
      by_cases hid : ev.id > c.lastId
      · rw [if_pos hid]
        cases hl : c.last with
        | none => exact ⟨[], rfl, by simp⟩
        | some ls =>
          refine ⟨prev, ?_, hp⟩
          have : ls = textOf prev := by simpa [hl] using hc
          simp only [this, textOf_flatten]
      · rw [if_neg hid]
        exact ⟨[], rfl, by simp⟩
    obtain ⟨next, hn, hnp⟩ := h2
    obtain ⟨out, ho, hop⟩ := h1
    obtain ⟨rows, hr, e⟩ := ih (stepCur c ev).2 next hn hnp (fun ev' h' => he ev' (by simp [h']))
    refine ⟨out ++ rows, ?_, ?_⟩
    · intro r hr'
      rcases List.mem_append.1 hr' with h | h
      · exact hop r h
      · exact hr r h
    · simp only [runCur]
      rw [tableText_append, List.append_assoc, e, ho]

/-- The lines of a table text. -/
theorem lines_tableText {rows : List (List Text)} (h : ∀ r ∈ rows, ∀ col ∈ r, '\n' ∉ col) :
    lines (tableText rows ++ endMarker) = rows.map (List.intercalate ['\t']) ++ [['\\', '.']] := by
  have e : tableText rows ++ endMarker =
      (rows.map (List.intercalate ['\t']) ++ [['\\', '.']]).flatMap (fun l => l ++ ['\n']) := by
    simp [tableText, endMarker, List.flatMap_map]
  rw [e, lines_of_lines]
  intro l hl
  rcases List.mem_append.1 hl with hl | hl
  · obtain ⟨r, hr, rfl⟩ := List.mem_map.1 hl
    rw [← tabbed_eq]
    exact newline_not_mem_tabbed (h r hr)
  · simp at hl; subst hl; decide

theorem rowOk_line {r : List Text} {x : Char} (h : RowOk x r) :
    List.intercalate ['\t'] r ≠ [] ∧ ¬ (['\\', '.'] <+: List.intercalate ['\t'] r) := by
  obtain ⟨⟨c, cs, rest, rfl, hc⟩, _⟩ := h
  have e : ∃ u, List.intercalate ['\t'] ((c :: cs) :: rest) = c :: u := by
    rw [← tabbed_eq]
    cases rest with
    | nil => exact ⟨_, rfl⟩
    | cons g gs => exact ⟨cs ++ '\t' :: tabbed (g :: gs), rfl⟩
  obtain ⟨u, e⟩ := e
  rw [e]
  refine ⟨by simp, ?_⟩
  intro hp
  rw [List.cons_prefix_cons] at hp
  exact hc hp.1.symm

end OsmIo.Apidb
