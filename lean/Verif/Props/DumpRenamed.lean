import Verif.Props.DumpRepeatedKeys
import Verif.Props.DumpSessions
/-!
# A user renamed between two sessions (C95)
-/
namespace OsmIo
open Text Sql Apidb Spec

namespace RoundTripExample

/-- A way of the user 7. -/
def firstDay (name : String) : Way := ⟨1, 1, 1000000, 5, 7, name, true, [], []⟩

/-- A later version of it. -/
def nextDay (name : String) : Way := { firstDay name with version := 2 }

/-- The user was "Ada" on the first day, and is "Eve" on the next. -/
def renamed : List Session := [⟨[.way (firstDay "Ada")], fun _ => 0, fun _ => 0⟩, ⟨[.way (nextDay "Eve")], fun _ => 0, fun _ => 0⟩]

/-- The files they leave behind. -/
def renamingRun : Option (Table → Text) :=
  match sessions codec Apidb.Writer.new renamed with
  | .ok w => some w.files
  | _ => none

/-- Two rows are in the order of the key. -/
def lineLeC : List (Nat × FieldType) → Text → Text → Bool
  | [], _, _ => true
  | (i, .integer) :: key, a, b =>
    match parseInt (column a i), parseInt (column b i) with
    | some m, some n => decide (m < n) || decide (m = n) && lineLeC key a b
    | _, _ => false
  | (i, .string) :: key, a, b =>
    decide (le (column a i) (column b i) ∧ ¬ le (column b i) (column a i)) || decide (column a i = column b i) && lineLeC key a b

theorem lineLeC_le (key : List (Nat × FieldType)) (a b : Text) (h : lineLeC key a b = true) : lineLe le key a b := by
  induction key with
  | nil => trivial
  | cons k key ih =>
    obtain ⟨i, t⟩ := k
    cases t
    · rw [lineLeC] at h
      split at h
      · rename_i m n hm hn
        rw [Bool.or_eq_true, Bool.and_eq_true, decide_eq_true_iff, decide_eq_true_iff] at h
        rcases h with h | ⟨rfl, h⟩
        · exact .inl ⟨m, n, hm, hn, h⟩
        · exact .inr ⟨hm.trans hn.symm, ih h⟩
      · exact nomatch h
    · rw [lineLeC, Bool.or_eq_true, Bool.and_eq_true, decide_eq_true_iff, decide_eq_true_iff] at h
      rcases h with h | ⟨e, h⟩
      · exact .inl h
      · exact .inr ⟨e ▸ List.le_refl _, e ▸ List.le_refl _, ih h⟩

/-- Rows in the order of the key. -/
def inOrder (key : List (Nat × FieldType)) : List Text → Bool
  | [] => true
  | a :: l => l.all (lineLeC key a) && inOrder key l

theorem inOrder_pairwise (key : List (Nat × FieldType)) (l : List Text) (h : inOrder key l = true) : l.Pairwise (lineLe le key) := by
  induction l with
  | nil => exact .nil
  | cons a l ih =>
    rw [inOrder, Bool.and_eq_true, List.all_eq_true] at h
    exact .cons (fun b hb => lineLeC_le _ _ _ (h.1 b hb)) (ih h.2)

/-- A file with the rows of each table, those of one table the other way round. -/
def turned (x : Table) (f : Table → Text) (t : Table) : Text :=
  joinRows (if t = x then (keepRows f t).reverse else keepRows f t)

/-- Whether these files are sorted copies. -/
def goodCopy (x : Table) (f : Table → Text) : Bool :=
  ofInterest.all fun t =>
    decide (lines (turned x f t) = if t = x then (keepRows f t).reverse else keepRows f t) &&
    match dumpTables t with
    | some (d, _) => inOrder d.key (lines (turned x f t))
    | none => true

theorem goodCopy_sorted (x : Table) (f : Table → Text) (h : goodCopy x f = true) : SortedCopy le f (turned x f) := by
  rw [goodCopy, List.all_eq_true] at h
  refine sortedCopy_of _ _ (fun t ht => ?_) fun t ht d file hd => ?_
  · have := h t ht
    rw [Bool.and_eq_true, decide_eq_true_iff] at this
    rw [this.1]
    split
    · exact List.reverse_perm _
    · exact .refl _
  · have := h t ht
    rw [Bool.and_eq_true, hd] at this
    exact inOrder_pairwise _ _ this.2

/-- What a reader gives for these files. -/
def readTurned (x : Table) (f : Table → Text) : Option (List Element) :=
  match ElementIterator.new dumpTables (turned x f) with
  | .ok it => collect 10 it
  | _ => none

theorem readTurned_iterates (x : Table) (f : Table → Text) (out : List Element) (h : readTurned x f = some out) :
    ∃ it it', ElementIterator.new dumpTables (turned x f) = .ok it ∧ Iterates (ElementIterator.next codec) it out it' := by
  rw [readTurned] at h
  split at h
  · rename_i it e
    obtain ⟨it', hi⟩ := collect_iterates _ _ _ h
    exact ⟨it, it', e, hi⟩
  · exact nomatch h

end RoundTripExample

open RoundTripExample in
/-- C95, as it is: when a user is renamed between two sessions, both rows of the user are in the table, and which name comes back, for the old version and the new one alike,
is up to the sorting, which knows only the ids of users. Only the requirement that each user has one name is missing from `C95_read_back`. -/
theorem C95_renamed :
    ∃ (z : Codec) (le : Text → Text → Prop) (ss : List Session) (files sorted₁ sorted₂ : Table → Text) (it it' jt jt' : ElementIterator),
      Faithful z ∧ InSessions z ss files ∧ Storable (allOf ss) ∧ SortedCopy le files sorted₁ ∧ SortedCopy le files sorted₂ ∧
      allOf ss = [.way (firstDay "Ada"), .way (nextDay "Eve")] ∧
      ElementIterator.new dumpTables sorted₁ = .ok it ∧
      Iterates (ElementIterator.next z) it [.sentinel, .way (firstDay "Eve"), .way (nextDay "Eve"), .sentinel, .sentinel] it' ∧
      ElementIterator.new dumpTables sorted₂ = .ok jt ∧
      Iterates (ElementIterator.next z) jt [.sentinel, .way (firstDay "Ada"), .way (nextDay "Ada"), .sentinel, .sentinel] jt' := by
  obtain ⟨f, hf⟩ : ∃ f, renamingRun = some f := Option.isSome_iff_exists.1 (by decide +kernel)
  have hin : InSessions codec renamed f := by
    have h := hf
    rw [renamingRun] at h
    split at h
    · rename_i w e
      exact ⟨w, e, (Option.some.inj h).symm⟩
    · exact nomatch h
  have hg : goodCopy .nodes f = true ∧ goodCopy .users f = true ∧
      readTurned .nodes f = some [.sentinel, .way (firstDay "Eve"), .way (nextDay "Eve"), .sentinel, .sentinel] ∧
      readTurned .users f = some [.sentinel, .way (firstDay "Ada"), .way (nextDay "Ada"), .sentinel, .sentinel] := by
    have : renamingRun.all (fun f => decide (goodCopy .nodes f = true ∧ goodCopy .users f = true ∧
      readTurned .nodes f = some [.sentinel, .way (firstDay "Eve"), .way (nextDay "Eve"), .sentinel, .sentinel] ∧
      readTurned .users f = some [.sentinel, .way (firstDay "Ada"), .way (nextDay "Ada"), .sentinel, .sentinel])) = true := by decide +kernel
    rw [hf] at this
    exact of_decide_eq_true this
  obtain ⟨g1, g2, r1, r2⟩ := hg
  obtain ⟨it, it', h1, h2⟩ := readTurned_iterates _ _ _ r1
  obtain ⟨jt, jt', h3, h4⟩ := readTurned_iterates _ _ _ r2
  refine ⟨codec, le, renamed, f, _, _, it, it', jt, jt', faithful, hin, ?_, goodCopy_sorted _ _ g1, goodCopy_sorted _ _ g2, rfl, h1, h2, h3, h4⟩
  refine ⟨by simp [allOf, renamed, Spec.nodesOf], by simp [allOf, renamed, Spec.waysOf, firstDay, nextDay], by simp [allOf, renamed, Spec.relationsOf], by simp [allOf, renamed, Spec.nodesOf], ?_,
    by simp [allOf, renamed, Spec.waysOf, firstDay, nextDay], by simp [allOf, renamed, Spec.relationsOf]⟩
  have e : userNames (allOf renamed) = [(7, "Ada"), (7, "Eve")] := rfl
  rw [e]; decide

end OsmIo
