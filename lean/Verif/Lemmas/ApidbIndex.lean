import Verif.Lemmas.ApidbReader
import Verif.Lemmas.ApidbWriter
/-! The user and changeset indexes of the writer. -/
namespace OsmIo.Apidb
open OsmIo.Text OsmIo.Sql OsmIo.Spec

/-- No key twice. -/
def Keyed {β : Type} (m : List (Int64 × β)) : Prop := m.Pairwise fun a b => a.1 ≠ b.1

theorem keyed_insertKey {β : Type} (k : Int64) (v : β) {m : List (Int64 × β)} (h : Keyed m) : Keyed (insertKey k v m) := by
  unfold Keyed insertKey
  refine List.pairwise_cons.2 ⟨?_, List.Pairwise.filter _ h⟩
  intro p hp
  have := (List.mem_filter.1 hp).2
  simp at this
  exact fun e => this e.symm

theorem keyed_insertAll {β : Type} (rs : List (Int64 × β)) {m : List (Int64 × β)} (h : Keyed m) : Keyed (insertAll rs m) := by
  induction rs generalizing m with
  | nil => exact h
  | cons p rs ih => exact ih (keyed_insertKey p.1 p.2 h)

theorem mem_iff_lookup {β : Type} {m : List (Int64 × β)} (h : Keyed m) (k : Int64) (v : β) :
    (k, v) ∈ m ↔ lookup k m = some v := by
  induction m with
  | nil => simp [lookup]
  | cons p m ih =>
    obtain ⟨h1, h2⟩ := List.pairwise_cons.1 h
    have ih := ih h2
    unfold lookup at ih ⊢
    rw [List.find?_cons]
    by_cases hk : p.1 = k
    · simp only [hk, decide_true, List.mem_cons, Option.map_some, Option.some.injEq]
      constructor
      · rintro (rfl | hm)
        · rfl
        · exact absurd hk (h1 _ hm)
      · rintro rfl
        left
        rw [← hk]
    · simp only [hk, decide_false, List.mem_cons]
      rw [← ih]
      constructor
      · rintro (rfl | hm)
        · exact absurd rfl hk
        · exact hm
      · exact .inr

theorem lookup_foldr {β : Type} (b : List (Int64 × β)) (k : Int64) :
    lookup k (b.foldr (fun p m => insertKey p.1 p.2 m) []) = lookup k b := by
  have e : b.foldr (fun p m => insertKey p.1 p.2 m) [] = insertAll b.reverse [] := by
    unfold insertAll; rw [List.foldl_reverse]
  rw [e, lookup_insertAll]
  simp only [lastValue, List.reverse_reverse]
  simp [lookup]

theorem keyed_foldr {β : Type} (b : List (Int64 × β)) : Keyed (b.foldr (fun p m => insertKey p.1 p.2 m) []) := by
  induction b with
  | nil => exact .nil
  | cons p b ih => exact keyed_insertKey _ _ ih

theorem entries_lastValues {β : Type} {l : List (Int64 × β)} {m : List (Int64 × β)} (hk : Keyed m)
    (h : ∀ k, lookup k m = lastValue l k) : LastValues l (entries m) := by
  have perm : (entries m).Perm m := List.mergeSort_perm ..
  have sorted : (entries m).Pairwise fun a b => a.1 ≤ b.1 := by
    have := List.pairwise_mergeSort (le := fun a b : Int64 × β => decide (a.1 ≤ b.1))
      (by intro a b c h1 h2; simp at *; exact Int64.le_trans h1 h2)
      (by intro a b; simp only [Bool.or_eq_true, decide_eq_true_eq]; exact Int64.le_total ..) m
    exact this.imp (by simp)
  have hk' : Keyed (entries m) := by
    unfold Keyed
    exact (perm.pairwise_iff (fun h => fun e => h e.symm)).2 hk
  refine ⟨(sorted.and hk').imp (fun h => Int64.lt_of_le_of_ne h.1 h.2), ?_⟩
  intro k v
  rw [perm.mem_iff, mem_iff_lookup hk, h]

theorem foldl_users (es : List Element) (m : List (Int64 × String)) :
    es.foldl users1 m = insertAll (userNames es) m := by
  induction es generalizing m with
  | nil => rfl
  | cons e es ih => cases e <;> simp [ih, users1, owner, userNames, insertAll]

theorem foldl_changesets (es : List Element) (m : List (Int64 × Int64)) :
    es.foldl changesets1 m = insertAll (changesetUsers es) m := by
  induction es generalizing m with
  | nil => rfl
  | cons e es ih => cases e <;> simp [ih, changesets1, owner, changesetUsers, insertAll]

/-- The entries written by `close` after buffering all of `l`. -/
theorem written_entries {β : Type} (l : List (Int64 × β)) :
    LastValues l (entries ((insertAll l []).foldr (fun p m => insertKey p.1 p.2 m) [])) := by
  refine entries_lastValues (keyed_foldr _) ?_
  intro k
  rw [lookup_foldr, lookup_insertAll]
  simp [lookup]

end OsmIo.Apidb
