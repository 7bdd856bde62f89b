import Verif.Props.Block
import Verif.Spec.Defaults
/-! # C30: absent metadata, continued -/
set_option linter.unusedSimpArgs false
set_option linter.flexible false
namespace OsmIo
open Spec

theorem readInfo_explicit (tbl : List String) (dg : Int32) (i : Option Pb.Info) :
    readInfo tbl dg (i.map explicitInfo) = readInfo tbl dg i := by
  cases i <;> simp [readInfo, explicitInfo]

/-- C30. A metadata field that is absent means the same as its default written out: version -1, time 0, changeset -1, uid -1, no
user, visible. -/
theorem C30_default_fields (p : Pb.PrimitiveBlock) : fromPrimitiveBlock (explicitBlock p) = fromPrimitiveBlock p := by
  have h : ∀ tbl gr dg la lo, readGroup tbl gr dg la lo = fun g => readGroup tbl gr dg la lo g := fun _ _ _ _ _ => rfl
  simp only [fromPrimitiveBlock, explicitBlock]
  congr 1
  funext tbl
  rw [h]
  simp [List.mapM_map, readGroup, readNode, readWay, readRelation, Function.comp_def, readInfo_explicit]
  rfl

/-- C30. Without any metadata the time of ways, relations and plain nodes is -1, that of dense nodes 0. -/
theorem C30_default_timestamp (p : Pb.PrimitiveBlock) (es : List Element)
    (hno : ∀ g ∈ p.primitivegroup, (∀ d, g.dense = some d → d.denseinfo = none) ∧
      (∀ n ∈ g.nodes, n.info = none) ∧ (∀ w ∈ g.ways, w.info = none) ∧ (∀ r ∈ g.relations, r.info = none))
    (h : fromPrimitiveBlock p = .ok es) :
    ((∀ g ∈ p.primitivegroup, g.dense = none) → ∀ e ∈ es, timestampOf e = some (-1)) ∧
    ((∀ g ∈ p.primitivegroup, g.nodes = [] ∧ g.ways = [] ∧ g.relations = []) → ∀ e ∈ es, timestampOf e = some 0) := by
  constructor
  · intro hd
    refine decode_forall (P := fun e => timestampOf e = some (-1)) h ?_ ?_ ?_ ?_
    · intro tbl _ g hg d hd'
      rw [hd g hg] at hd'; cases hd'
    · intro tbl _ g hg n hn gr dg la lo e he
      simp only [readNode, (hno g hg).2.1 n hn, readInfo, Out.bind_eq_ok, Out.ok.injEq] at he
      obtain ⟨m, rfl, tags, _, rfl⟩ := he
      rfl
    · intro tbl _ g hg n hn dg e he
      simp only [readWay, (hno g hg).2.2.1 n hn, readInfo, Out.bind_eq_ok, Out.ok.injEq] at he
      obtain ⟨m, rfl, tags, _, rfl⟩ := he
      rfl
    · intro tbl _ g hg n hn dg e he
      simp only [readRelation, (hno g hg).2.2.2 n hn, readInfo, Out.bind_eq_ok, Out.ok.injEq] at he
      obtain ⟨m, rfl, ms, _, tags, _, rfl⟩ := he
      rfl
  · intro hd
    refine decode_forall (P := fun e => timestampOf e = some 0) h ?_ ?_ ?_ ?_
    · intro tbl _ g hg d hd gr dg la lo es hes e he
      have hnone := (hno g hg).1 d hd
      obtain ⟨n, rfl, hn⟩ := readDenseGo_forall
        (P := fun n => n.timestamp = 0)
        (S := fun s => s.timestamp = 0)
        (by
          intro i s s' v u tags kv hs h1 h2
          rw [hnone] at h1
          simp only [readDenseInfo, Out.ok.injEq, Prod.mk.injEq] at h1
          obtain ⟨rfl, rfl, rfl⟩ := h1
          exact ⟨hs, fun c => hs⟩)
        (fun s a b c hs => hs) d.id 0 _ es (by simp [DenseState.init, hnone]) hes e he
      simp [timestampOf, hn]
    · intro tbl _ g hg n hn; rw [(hd g hg).1] at hn; simp at hn
    · intro tbl _ g hg n hn; rw [(hd g hg).2.1] at hn; simp at hn
    · intro tbl _ g hg n hn; rw [(hd g hg).2.2] at hn; simp at hn

/-- A block with a dense node, a way and a relation, none with metadata; and a way with an empty metadata message. -/
def exNoInfo : Pb.PrimitiveBlock :=
  { stringtable := ⟨[[]]⟩
    primitivegroup := [{ dense := some { id := [5], lat := [1], lon := [2] } }, { ways := [{ id := 7, refs := [1, 1] }], relations := [{ id := 9 }] }] }
def exSparse : Pb.PrimitiveBlock :=
  { stringtable := ⟨[[]]⟩, primitivegroup := [{ ways := [{ id := 7, refs := [1, 1], info := some { changeset := some 3 } }] }] }

example : fromPrimitiveBlock { exNoInfo with primitivegroup := exNoInfo.primitivegroup.take 1 } =
    .ok [.node ⟨5, 0, ⟨rnd (100 / 10 ^ 9), rnd (200 / 10 ^ 9)⟩, 0, -1, -1, "", true, []⟩] := by decide +kernel
example : fromPrimitiveBlock { exNoInfo with primitivegroup := exNoInfo.primitivegroup.drop 1 } =
    .ok [.way ⟨7, 0, -1, -1, -1, "", true, [1, 2], []⟩, .relation ⟨9, 0, -1, -1, -1, "", true, [], []⟩] := by decide +kernel
example : fromPrimitiveBlock exSparse = .ok [.way ⟨7, -1, 0, 3, -1, "", true, [1, 2], []⟩] ∧ explicitBlock exSparse ≠ exSparse := by
  decide +kernel

end OsmIo
