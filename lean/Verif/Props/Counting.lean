import Verif.Model.Counting
import Verif.Props.FormatMore
import Verif.Props.Refusals
/-! # C72: the counting programs -/
set_option linter.unusedSimpArgs false
set_option linter.flexible false
namespace OsmIo
open Spec

/-- How many tags with the key `key` the elements selected by `kind` have. -/
def Spec.tagCount (key : String) (kind : Element → Bool) (es : List Element) : Nat := ((es.filter kind).flatMap tagsOf).countP fun t => t.k = key

theorem countTourism_eq (tags : List Tag) (n : UInt64) : countTourism tags n = n + UInt64.ofNat (tags.countP fun t => t.k = "tourism") := by
  induction tags generalizing n with
  | nil => simp [countTourism]
  | cons t tags ih =>
    have : countTourism (t :: tags) n = countTourism tags (if t.k = "tourism" then n + 1 else n) := rfl
    rw [this, ih, List.countP_cons]
    split <;> simp_all [UInt64.ofNat_add, UInt64.add_assoc, UInt64.add_comm]

theorem count_all (es : List Element) (c : Counts) :
    es.foldl countElement c =
      ⟨c.nodes + UInt64.ofNat (es.countP (·.isNode)), c.ways + UInt64.ofNat (es.countP (·.isWay)), c.relations + UInt64.ofNat (es.countP (·.isRelation)),
       c.tourismNodes + UInt64.ofNat (tagCount "tourism" (·.isNode) es), c.tourismWays + UInt64.ofNat (tagCount "tourism" (·.isWay) es),
       c.tourismRelations + UInt64.ofNat (tagCount "tourism" (·.isRelation) es)⟩ := by
  induction es generalizing c with
  | nil => simp [tagCount]
  | cons e es ih =>
    rw [List.foldl_cons, ih]
    cases e <;>
      simp [countElement, countTourism_eq, tagCount, tagsOf, Element.isNode, Element.isWay, Element.isRelation, UInt64.ofNat_add, UInt64.add_assoc, UInt64.add_comm]

/-- C72. On a published file `count-pbf-elements` reports the numbers of nodes, ways and relations and, for each kind, the number of tags with the key `tourism`. -/
theorem C72_sequential (z : Zlib) (inflates : Format.Inflates) (hz : ∀ c d, inflates c d → z.stream c = d)
    (info : FileInfo) (blocks : List (List Element)) (file : Bytes) (h : Format.IsFile inflates info blocks file)
    (hs : ∀ f ∈ info.required_features, Supported f)
    (hlen : blocks.flatten.length < 2 ^ 64) (htags : (blocks.flatten.flatMap tagsOf).length < 2 ^ 64) :
    ∃ c : Counts, (∀ r, CountPbf z file r ↔ r = .ok c) ∧
      c.nodes.toNat = blocks.flatten.countP (·.isNode) ∧ c.ways.toNat = blocks.flatten.countP (·.isWay) ∧
      c.relations.toNat = blocks.flatten.countP (·.isRelation) ∧
      c.tourismNodes.toNat = tagCount "tourism" (·.isNode) blocks.flatten ∧ c.tourismWays.toNat = tagCount "tourism" (·.isWay) blocks.flatten ∧
      c.tourismRelations.toNat = tagCount "tourism" (·.isRelation) blocks.flatten := by
  obtain ⟨ho, hread⟩ := C58_file_read_as_published z inflates hz info blocks file h hs
  refine ⟨blocks.flatten.foldl countElement {}, ?_, ?_⟩
  · intro r
    unfold CountPbf
    rw [ho]
    constructor
    · rintro ⟨es, e, h1, h2⟩
      obtain ⟨rfl, rfl⟩ := (hread es e).1 h1
      exact h2
    · rintro rfl
      exact ⟨_, _, (hread _ _).2 ⟨rfl, rfl⟩, rfl⟩
  · rw [count_all]
    have n1 : ∀ f : Element → Bool, (0 + UInt64.ofNat (blocks.flatten.countP f)).toNat = blocks.flatten.countP f := by
      intro f
      have := lt_of_le_of_lt (List.countP_le_length (p := f)) hlen
      rw [UInt64.zero_add, UInt64.toNat_ofNat', Nat.mod_eq_of_lt this]
    have n2 : ∀ f : Element → Bool, (0 + UInt64.ofNat (tagCount "tourism" f blocks.flatten)).toNat = tagCount "tourism" f blocks.flatten := by
      intro f
      have h1 : tagCount "tourism" f blocks.flatten ≤ ((blocks.flatten.filter f).flatMap tagsOf).length := List.countP_le_length
      have h2 : ((blocks.flatten.filter f).flatMap tagsOf).length ≤ (blocks.flatten.flatMap tagsOf).length :=
        (List.Sublist.flatMap List.filter_sublist tagsOf).length_le
      rw [UInt64.zero_add, UInt64.toNat_ofNat', Nat.mod_eq_of_lt (lt_of_le_of_lt (h1.trans h2) htags)]
    exact ⟨n1 _, n1 _, n1 _, n2 _, n2 _, n2 _⟩

/-- C72. `parallel-count-pbf-elements` reports the same numbers, for every number of threads and every schedule. -/
theorem C72_parallel (z : Zlib) (inflates : Format.Inflates) (hz : ∀ c d, inflates c d → z.stream c = d)
    (info : FileInfo) (blocks : List (List Element)) (file : Bytes) (h : Format.IsFile inflates info blocks file)
    (hs : ∀ f ∈ info.required_features, Supported f) (hlen : blocks.flatten.length < 2 ^ 63)
    (T : Nat) (hT : 0 < T) (c : Counts) (hc : CountPbf z file (.ok c)) (r : Out (UInt64 × UInt64 × UInt64)) :
    ParallelCountPbf z file T r ↔ r = .ok (c.nodes, c.ways, c.relations) := by
  obtain ⟨ho, hread⟩ := C58_file_read_as_published z inflates hz info blocks file h hs
  have hcc : c = blocks.flatten.foldl countElement {} := by
    unfold CountPbf at hc
    rw [ho] at hc
    obtain ⟨es, e, h1, h2⟩ := hc
    obtain ⟨rfl, rfl⟩ := (hread es e).1 h1
    exact Out.ok.inj h2
  have hpar : ∀ p : Pool T Element (UInt64 × UInt64 × UInt64), ParallelForEach z file countAct (0, 0, 0) p → p.shared = (c.nodes, c.ways, c.relations) := by
    intro p hp
    obtain ⟨h1, h2, h3⟩ := C58_counts z inflates hz info blocks file h hlen T p hp
    have key : ∀ (u : UInt64) (f : Element → Bool), u.toInt64.toInt = (blocks.flatten.countP f : Nat) → u = 0 + UInt64.ofNat (blocks.flatten.countP f) := by
      intro u f hu
      have hlt := lt_of_le_of_lt (List.countP_le_length (p := f)) hlen
      generalize blocks.flatten.countP f = n at *
      rw [← Int64.toInt_ofNat_of_lt (n := n) hlt, Int64.toInt_inj] at hu
      have : u.toInt64 = (UInt64.ofNat n).toInt64 := hu
      rw [UInt64.zero_add]
      exact congrArg Int64.toUInt64 this
    rw [hcc, count_all]
    exact Prod.ext (key _ _ h1) (Prod.ext (key _ _ h2) (key _ _ h3))
  unfold ParallelCountPbf
  rw [ho]
  constructor
  · rintro ⟨p, hp, rfl⟩
    rw [hpar p hp]
  · rintro rfl
    obtain ⟨p, hp⟩ := C58_parallel_runs z inflates hz info blocks file h T hT _ countAct (0, 0, 0)
    exact ⟨p, hp, by rw [hpar p hp]⟩

/-- C72. A file with a required feature that is not supported makes both programs end with an error. -/
theorem C72_unsupported (z : Zlib) (inflates : Format.Inflates) (hz : ∀ c d, inflates c d → z.stream c = d)
    (info : FileInfo) (head rest : Bytes) (h : Format.IsHeaderFrame inflates info head) (hs : ∃ f ∈ info.required_features, ¬ Supported f) (T : Nat) :
    (∀ r, CountPbf z (head ++ rest) r ↔ r = .err) ∧ ∀ r, ParallelCountPbf z (head ++ rest) T r ↔ r = .err := by
  have ho := (C17_published z inflates hz info head rest h).2 hs
  constructor <;> intro r
  · unfold CountPbf; rw [ho]
  · unfold ParallelCountPbf; rw [ho]

/-- C72. If a block after good ones is damaged, `count-pbf-elements` panics and reports nothing. -/
theorem C72_damaged (z : Zlib) (inflates : Format.Inflates) (hz : ∀ c d, inflates c d → z.stream c = d)
    (info : FileInfo) (blocks : List (List Element)) (good bad rest : Bytes) (h : Format.IsFile inflates info blocks good)
    (hs : ∀ f ∈ info.required_features, Supported f) (hbad : Format.IsDamagedFrame inflates bad) (r : Out Counts) :
    CountPbf z (good ++ (bad ++ rest)) r → r = .panic := by
  have ho : openReader z (good ++ (bad ++ rest)) = .ok info := by
    obtain ⟨head, frames, rfl, h1, _⟩ := h
    rw [List.append_assoc]
    exact (C17_published z inflates hz info head _ h1).1 hs
  unfold CountPbf
  rw [ho]
  rintro ⟨es, e, h1, rfl⟩
  obtain ⟨rfl, rfl⟩ := (C31_stops_at_damaged z inflates hz info blocks good bad rest h hbad es e).1 h1
  rfl

/-- The hypotheses of `C72_sequential` and `C72_parallel` are met by a file: one way. -/
example : ∃ c : Counts, (∀ r, CountPbf exZ exForeignFile r ↔ r = .ok c) ∧ c.ways.toNat = 1 ∧ c.nodes.toNat = 0 ∧
    ∀ r, ParallelCountPbf exZ exForeignFile 3 r ↔ r = .ok (c.nodes, c.ways, c.relations) := by
  have hfile := exForeignFile_is
  generalize exForeignFile = file at hfile
  have hs : ∀ f ∈ exForeignInfo.required_features, Supported f := by simp [exForeignInfo, Supported]
  obtain ⟨c, h, h1, h2, -⟩ := C72_sequential exZ _ (fun _ _ h => h) _ _ file hfile hs (by decide) (by decide)
  refine ⟨c, h, h2.trans (by decide), h1.trans (by decide), fun r => ?_⟩
  exact C72_parallel exZ _ (fun _ _ h => h) _ _ file hfile hs (by decide) 3 (by decide) c ((h _).2 rfl) r

example : tagCount "tourism" (·.isNode) [.node { exNode with tags := [⟨"tourism", "hotel"⟩, ⟨"name", "x"⟩, ⟨"tourism", "museum"⟩] },
    .way { exWay with tags := [⟨"tourism", "hotel"⟩] }] = 2 := by decide

end OsmIo
