import Verif.Props.DumpTwicePrograms
/-!
# Through a dump twice with a repeated tag key (C92)
-/
namespace OsmIo
open Text Sql Apidb Spec

namespace RoundTripExample

/-- A way with two tags of the same key. -/
def doubled : Way := ⟨1, 1, 1000000, 5, 7, "Ada", true, [3], [⟨"k", "a"⟩, ⟨"k", "b"⟩]⟩

/-- The same way with its tags the other way round. -/
def doubledBack : Way := { doubled with tags := [⟨"k", "b"⟩, ⟨"k", "a"⟩] }

/-- The files of its dump. -/
def doubledRun : Option (Table → Text) :=
  match Apidb.Writer.new.writeAll codec [.way doubled] with
  | .ok w => match w.close (fun _ => 0) (fun _ => 0) with
    | .ok w' => some w'.files
    | _ => none
  | _ => none

/-- The rows of a table. -/
def keepRows (f : Table → Text) (t : Table) : List Text := (lines (f t)).filter fun l => l ≠ [] ∧ l ≠ ['\\', '.']

/-- The file with these rows. -/
def joinRows (ls : List Text) : Text := (ls.map (· ++ ['\n'])).flatten

/-- What an iterator gives within `n` calls. -/
def collect : Nat → ElementIterator → Option (List Element)
  | 0, _ => none
  | n + 1, it => match ElementIterator.next codec it with
    | .ok (none, _) => some []
    | .ok (some a, it') => (collect n it').map (a :: ·)
    | _ => none

theorem collect_iterates (n : Nat) (it : ElementIterator) (out : List Element) (h : collect n it = some out) :
    ∃ it', Iterates (ElementIterator.next codec) it out it' := by
  induction n generalizing it out with
  | zero => simp [collect] at h
  | succ n ih =>
    rw [collect] at h
    split at h
    · rename_i it' e
      cases h
      exact ⟨it', it, .nil it, e⟩
    · rename_i a it' e
      obtain ⟨o, ho, rfl⟩ := Option.map_eq_some_iff.1 h
      obtain ⟨it'', s₁, hy, hn⟩ := ih it' o ho
      exact ⟨it'', s₁, .cons e hy, hn⟩
    · exact nomatch h

theorem doubled_dump (f : Table → Text) (h : doubledRun = some f) : Dump codec (fun _ => 0) (fun _ => 0) [.way doubled] f := by
  rw [doubledRun] at h
  split at h
  · rename_i w e
    split at h
    · rename_i w' e'
      exact ⟨w, w', e, e', (Option.some.inj h).symm⟩
    · exact nomatch h
  · exact nomatch h

/-- A sufficient check of `lineLe`: all the columns of the key are equal. -/
def lineLeB : List (Nat × FieldType) → Text → Text → Bool
  | [], _, _ => true
  | (i, .integer) :: key, a, b => decide (parseInt (column a i) = parseInt (column b i)) && lineLeB key a b
  | (i, .string) :: key, a, b => decide (column a i = column b i) && lineLeB key a b

theorem lineLeB_le (key : List (Nat × FieldType)) (a b : Text) (h : lineLeB key a b = true) : lineLe le key a b := by
  induction key with
  | nil => trivial
  | cons k key ih =>
    obtain ⟨i, t⟩ := k
    cases t <;> rw [lineLeB, Bool.and_eq_true, decide_eq_true_iff] at h
    · exact .inr ⟨h.1, ih h.2⟩
    · exact .inr ⟨h.1 ▸ List.le_refl _, h.1 ▸ List.le_refl _, ih h.2⟩

theorem sortedCopy_of (f sorted : Table → Text) (hp : ∀ t ∈ ofInterest, (lines (sorted t)).Perm (keepRows f t))
    (ho : ∀ t ∈ ofInterest, ∀ d file, dumpTables t = some (d, file) → (lines (sorted t)).Pairwise (lineLe le d.key)) :
    SortedCopy le f sorted := by
  intro t d file h
  have ht : t ∈ ofInterest := by
    by_contra hc
    simp [dumpTables, hc] at h
  exact ⟨hp t ht, ho t ht d file h⟩

end RoundTripExample

open RoundTripExample in
/-- C92, as it is: without the requirement that no element has two tags of the same key, a second time through a dump can differ from the first, although nothing
was lost: the order of such tags is up to the sorting of the tables, which knows only the keys. -/
theorem C92_repeated_keys :
    ∃ (z : Codec) (le : Text → Text → Prop) (es out₁ out₂ : List Element) (files files₂ sorted₁ sorted₂ : Table → Text)
      (it it' jt jt' : ElementIterator), Faithful z ∧ (∀ a b, le a b → le b a → a = b) ∧ Storable es ∧
      Dump z (fun _ => 0) (fun _ => 0) es files ∧ SortedCopy le files sorted₁ ∧
      ElementIterator.new dumpTables sorted₁ = .ok it ∧ Iterates (ElementIterator.next z) it out₁ it' ∧
      Dump z (fun _ => 0) (fun _ => 0) out₁ files₂ ∧ SortedCopy le files₂ sorted₂ ∧
      ElementIterator.new dumpTables sorted₂ = .ok jt ∧ Iterates (ElementIterator.next z) jt out₂ jt' ∧
      es = [.way doubled] ∧ out₁ = [.sentinel, .way doubled, .sentinel, .sentinel] ∧
      out₂ = [.sentinel, .way doubledBack, .sentinel, .sentinel] ∧ out₁ ≠ out₂ := by
  obtain ⟨f, hf⟩ : ∃ f, doubledRun = some f := Option.isSome_iff_exists.1 (by decide +kernel)
  have hd := doubled_dump f hf
  have h1 : ∀ t ∈ ofInterest, lines (joinRows (keepRows f t)) = keepRows f t := by
    have : (doubledRun.all fun f => ofInterest.all fun t => decide (lines (joinRows (keepRows f t)) = keepRows f t)) = true := by decide +kernel
    rw [hf] at this
    simpa using this
  have h2 : ∀ t ∈ ofInterest, lines (joinRows (keepRows f t).reverse) = (keepRows f t).reverse := by
    have : (doubledRun.all fun f => ofInterest.all fun t => decide (lines (joinRows (keepRows f t).reverse) = (keepRows f t).reverse)) = true := by decide +kernel
    rw [hf] at this
    simpa using this
  have h3 : ∀ t ∈ ofInterest, t = .wayTags ∨ (keepRows f t).length ≤ 1 := by
    have : (doubledRun.all fun f => ofInterest.all fun t => decide (t = .wayTags ∨ (keepRows f t).length ≤ 1)) = true := by decide +kernel
    rw [hf] at this
    simpa using this
  have h4 : ∃ it, ElementIterator.new dumpTables (fun t => joinRows (keepRows f t)) = .ok it ∧
      collect 10 it = some [.sentinel, .way doubled, .sentinel, .sentinel] := by
    have : (doubledRun.map fun f => match ElementIterator.new dumpTables (fun t => joinRows (keepRows f t)) with
      | .ok it => collect 10 it
      | _ => none) = some (some [.sentinel, .way doubled, .sentinel, .sentinel]) := by decide +kernel
    rw [hf] at this
    simp only [Option.map_some, Option.some.injEq] at this
    split at this
    · rename_i it e
      exact ⟨it, e, this⟩
    · exact nomatch this
  have h5 : ∃ it, ElementIterator.new dumpTables (fun t => joinRows (keepRows f t).reverse) = .ok it ∧
      collect 10 it = some [.sentinel, .way doubledBack, .sentinel, .sentinel] := by
    have : (doubledRun.map fun f => match ElementIterator.new dumpTables (fun t => joinRows (keepRows f t).reverse) with
      | .ok it => collect 10 it
      | _ => none) = some (some [.sentinel, .way doubledBack, .sentinel, .sentinel]) := by decide +kernel
    rw [hf] at this
    simp only [Option.map_some, Option.some.injEq] at this
    split at this
    · rename_i it e
      exact ⟨it, e, this⟩
    · exact nomatch this
  obtain ⟨it, hit, hc1⟩ := h4
  obtain ⟨jt, hjt, hc2⟩ := h5
  obtain ⟨it', hi⟩ := collect_iterates _ _ _ hc1
  obtain ⟨jt', hj⟩ := collect_iterates _ _ _ hc2
  have tags_order : ∀ d file, dumpTables .wayTags = some (d, file) →
      (keepRows f .wayTags).Pairwise (lineLe le d.key) ∧ (keepRows f .wayTags).reverse.Pairwise (lineLe le d.key) := by
    intro d file h
    obtain ⟨a, b, e, h12, h21⟩ : ∃ a b, keepRows f .wayTags = [a, b] ∧ lineLeB d.key a b = true ∧ lineLeB d.key b a = true := by
      have : (doubledRun.all fun f => match keepRows f .wayTags, dumpTables .wayTags with
        | [a, b], some (d, _) => lineLeB d.key a b && lineLeB d.key b a
        | _, _ => false) = true := by decide +kernel
      rw [hf, h] at this
      simp only [Option.all_some] at this
      split at this
      · rename_i a b d' file' e1 e2
        cases e2
        exact ⟨a, b, e1, by simpa using this⟩
      · exact nomatch this
    rw [e]
    exact ⟨.cons (by simpa using lineLeB_le _ _ _ h12) (List.pairwise_singleton _ _), .cons (by simpa using lineLeB_le _ _ _ h21) (List.pairwise_singleton _ _)⟩
  refine ⟨codec, le, _, _, _, f, f, _, _, it, it', jt, jt', faithful, fun a b h h' => List.le_antisymm h h', ?_, hd, ?_, hit, hi, hd, ?_, hjt, hj, rfl, rfl, rfl, by decide +kernel⟩
  · refine ⟨by simp [Spec.nodesOf], by simp [Spec.waysOf], by simp [Spec.relationsOf], by simp [Spec.nodesOf], ?_, by simp [Spec.waysOf, doubled],
      by simp [Spec.relationsOf]⟩
    have e : userNames [.way doubled] = [(7, "Ada")] := rfl
    rw [e]; decide
  · refine sortedCopy_of _ _ (fun t ht => by rw [h1 t ht]) fun t ht d file h => ?_
    rw [h1 t ht]
    rcases h3 t ht with rfl | h3
    · exact (tags_order d file h).1
    · match keepRows f t, h3 with
      | [], _ => exact .nil
      | [a], _ => exact List.pairwise_singleton _ _
  · refine sortedCopy_of _ _ (fun t ht => by rw [h2 t ht]; exact List.reverse_perm _) fun t ht d file h => ?_
    rw [h2 t ht]
    rcases h3 t ht with rfl | h3
    · exact (tags_order d file h).2
    · match keepRows f t, h3 with
      | [], _ => exact .nil
      | [a], _ => exact List.pairwise_singleton _ _

end OsmIo
