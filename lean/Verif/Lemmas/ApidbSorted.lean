import Verif.Lemmas.ApidbRows
import Verif.Lemmas.ApidbReader
import Verif.Lemmas.ApidbToc
import Verif.Spec.ApidbRoundTrip
import Mathlib.Data.List.Perm.Basic
/-! The sorted copy of a table that was written row by row. -/
namespace OsmIo.Apidb
open OsmIo.Text OsmIo.Sql OsmIo.Spec

/-- A list that is a permutation of an image is the image of a permutation. -/
theorem perm_map_inv {α β : Type} {f : α → β} {l : List α} {m : List β} (h : m.Perm (l.map f)) :
    ∃ l' : List α, l'.Perm l ∧ m = l'.map f := by
  induction l generalizing m with
  | nil => simp at h; subst h; exact ⟨[], .nil, rfl⟩
  | cons a l ih =>
    have hm : f a ∈ m := h.symm.subset (by simp)
    obtain ⟨m1, m2, rfl⟩ := List.append_of_mem hm
    have h2 : (m1 ++ m2).Perm (l.map f) := (List.perm_cons (f a)).1 (List.perm_middle.symm.trans h)
    obtain ⟨l', hl, e⟩ := ih h2
    obtain ⟨l1, l2, rfl, e1, e2⟩ := List.append_eq_map_iff.1 e
    exact ⟨l1 ++ a :: l2, List.perm_middle.trans (hl.cons a), by simp [e1, e2]⟩

/-- A row that can be split again. -/
def Good (cols : List Text) : Prop := RowOk '\t' cols ∧ RowOk '\n' cols

theorem Good.split {cols : List Text} (h : Good cols) : split '\t' (tabbed cols) = cols := by
  refine split_tabbed ?_ h.1.2
  obtain ⟨c, cs, rest, rfl, _⟩ := h.1.1
  simp

theorem Good.column {cols : List Text} (h : Good cols) (i : Nat) : column (tabbed cols) i = (cols[i - 1]?).getD [] := by
  unfold Apidb.column
  rw [h.split]

theorem Good.stop {cols : List Text} (h : Good cols) : stopLine (tabbed cols) = false := by
  rw [stopLine_false, tabbed_eq]
  exact rowOk_line h.1

/-- The lines of the sorted copy. -/
theorem sorted_lines {α : Type} {le : Text → Text → Prop} {key : List (Nat × FieldType)} {f : α → List Text}
    {l : List α} {text sorted : Text} (hg : ∀ a ∈ l, Good (f a)) (e : text = tableText (l.map f) ++ endMarker)
    (hs : Sorted le key text sorted) :
    ∃ l' : List α, l'.Perm l ∧ lines sorted = l'.map (fun a => tabbed (f a)) ∧
      l'.Pairwise fun a b => lineLe le key (tabbed (f a)) (tabbed (f b)) := by
  have hl : lines text = l.map (fun a => tabbed (f a)) ++ [['\\', '.']] := by
    rw [e, lines_tableText]
    · simp only [List.map_map, List.append_left_inj]
      apply List.map_congr_left
      intro a _
      exact (tabbed_eq _).symm
    · intro r hr col hc
      obtain ⟨a, ha, rfl⟩ := List.mem_map.1 hr
      exact (hg a ha).2.2 col hc
  have hf : (lines text).filter (fun l => l ≠ [] ∧ l ≠ ['\\', '.']) = l.map (fun a => tabbed (f a)) := by
    rw [hl, List.filter_append]
    have h2 : [(['\\', '.'] : Text)].filter (fun l => l ≠ [] ∧ l ≠ ['\\', '.']) = [] := by decide
    rw [h2, List.append_nil, List.filter_eq_self]
    intro x hx
    obtain ⟨a, ha, rfl⟩ := List.mem_map.1 hx
    have := stopLine_false.1 (hg a ha).stop
    simp only [decide_eq_true_eq]
    refine ⟨this.1, ?_⟩
    intro hh
    rw [hh] at this
    exact this.2 (List.prefix_refl _)
  have hp := hs.perm
  rw [hf] at hp
  obtain ⟨l', h1, h2⟩ := perm_map_inv hp
  refine ⟨l', h1, h2, ?_⟩
  have := hs.order
  rw [h2, List.pairwise_map] at this
  exact this

/-- The records of the sorted copy. -/
theorem sorted_holds {α β : Type} {build : Text → Out β} {r : α → β} {f : α → List Text} {l : List α} {sorted : Text}
    (h : lines sorted = l.map (fun a => tabbed (f a))) (hg : ∀ a ∈ l, Good (f a))
    (hb : ∀ a ∈ l, build (tabbed (f a)) = .ok (r a)) : Holds build sorted (l.map r) := by
  rw [holds_iff, h]
  unfold Reads
  clear h
  induction l with
  | nil => exact .nil
  | cons a l ih =>
    exact .cons ⟨(hg a (by simp)).stop, hb a (by simp)⟩ (ih (fun b hb => hg b (by simp [hb])) (fun b h => hb b (by simp [h])))

theorem columnsAt_range {cols : List Text} : columnsAt cols (List.range cols.length) = .ok cols := by
  unfold columnsAt
  have : ∀ (k : Nat) (pre : List Text), k = pre.length → ∀ rest : List Text, 
      allSome (fun i => (pre ++ rest)[i]?) (List.range' k rest.length) = some rest := by
    intro k pre hk rest
    induction rest generalizing k pre with
    | nil => rfl
    | cons c cs ih =>
      have := ih (k + 1) (pre ++ [c]) (by simp [hk])
      simp only [List.append_assoc, List.singleton_append] at this
      simp [List.range'_succ, allSome, hk, this] 
      rw [hk] at this
      simp [this]
  have := this 0 [] rfl cols
  rw [List.nil_append] at this
  rw [List.range_eq_range', this]
  rfl

theorem Good.columns {cols : List Text} (h : Good cols) {n : Nat} (hn : cols.length = n) :
    columnsAt (Text.split '\t' (tabbed cols)) (List.range n) = .ok cols := by
  rw [h.split, ← hn, columnsAt_range]

end OsmIo.Apidb
