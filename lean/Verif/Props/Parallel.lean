import Verif.Lemmas.Pool
import Verif.Lemmas.Reader
import Verif.Lemmas.Decode
import Verif.Props.File
import Verif.Spec.Parallel
/-! # C19, C20, C28: parallel reading -/
set_option linter.unusedSimpArgs false
set_option linter.flexible false
namespace OsmIo
open Spec Pool

/-- The commands submitted for a file are those of its blocks. -/
theorem commands_of_blocks {z : Zlib} {file : Bytes} (fuel : Nat) (it : BlobIter) (bs : List FileBlock)
    (h : takeBlocks z file fuel it = (bs, .done)) :
    ∃ ds, takeBlobs file fuel it = (ds, .done) ∧ ds.mapM (iterationCalls z file) = some (bs.map callsFor) ∧
      List.Forall₂ (fun d b => FileBlock.fromBlobDesc z file d = .ok b) ds bs := by
  induction fuel generalizing it bs with
  | zero => simp [takeBlocks] at h
  | succ fuel ih =>
    unfold takeBlocks nextBlock at h
    unfold takeBlobs
    cases hn : it.next file with
    | err => simp [hn] at h
    | panic => simp [hn] at h
    | ok o =>
      cases o with
      | none => simp [hn] at h; subst h; exact ⟨[], by simp, by simp, .nil⟩
      | some x =>
        obtain ⟨d, it'⟩ := x
        simp only [hn] at h ⊢
        cases hb : FileBlock.fromBlobDesc z file d with
        | err => simp [hb] at h
        | panic => simp [hb] at h
        | ok b =>
          simp only [hb] at h
          cases ht : takeBlocks z file fuel it' with
          | mk bs' e =>
            simp only [ht, Prod.mk.injEq] at h
            obtain ⟨rfl, rfl⟩ := h
            obtain ⟨ds, h1, h2, h3⟩ := ih it' bs' ht
            refine ⟨d :: ds, by simp [h1], ?_, .cons hb h3⟩
            have : iterationCalls z file d = some (callsFor b) := by
              unfold iterationCalls; rw [hb]; cases b <;> rfl
            simp [List.mapM_cons, this, h2]

theorem takeBlobs_mono {file : Bytes} (fuel fuel' : Nat) (it : BlobIter) (ds ds' : List BlobDesc)
    (h : takeBlobs file fuel it = (ds, .done)) (h' : takeBlobs file fuel' it = (ds', .done)) : ds = ds' := by
  induction fuel generalizing it ds ds' fuel' with
  | zero => simp [takeBlobs] at h
  | succ fuel ih =>
    cases fuel' with
    | zero => simp [takeBlobs] at h'
    | succ fuel' =>
      unfold takeBlobs at h h'
      cases hn : it.next file with
      | err => simp [hn] at h
      | panic => simp [hn] at h
      | ok o =>
        cases o with
        | none => simp [hn] at h h'; rw [h, h']
        | some x =>
          obtain ⟨d, it'⟩ := x
          simp only [hn] at h h'
          cases ht : takeBlobs file fuel it' with
          | mk a e =>
          cases ht' : takeBlobs file fuel' it' with
          | mk a' e' =>
            simp only [ht, ht', Prod.mk.injEq] at h h'
            obtain ⟨rfl, rfl⟩ := h
            obtain ⟨rfl, rfl⟩ := h'
            rw [ih fuel' it' a a' ht ht']

theorem forEach_calls {z : Zlib} {file : Bytes} {T : Nat} {σ : Type} {act : Fin T → Element → σ → σ} {s : σ} {p : Pool T Element σ}
    {bs : List FileBlock} (hb : HasBlocks z file bs) (hp : ParallelForEach z file act s p) :
    Inv act (bs.map callsFor) s p ∧ Done p := by
  obtain ⟨fuel, hb⟩ := hb
  obtain ⟨fuel', ds, calls, p, h1, h2, hs, hd⟩ := hp
  obtain ⟨ds', h1', h2', -⟩ := commands_of_blocks fuel {} bs hb
  obtain rfl := takeBlobs_mono fuel' fuel {} ds ds' h1 h1'
  rw [h2'] at h2
  simp at h2
  subst h2
  exact ⟨steps_inv (init_inv act _ s) hs, hd⟩

/-- C19. After `parallel_for_each` on a file with blocks `bs`, whatever the number of tasks, the schedule and the
function: the calls made are, as a multiset, the elements of all data blocks and one Sentinel for each data block; and the calls made for the
`k`-th block are its elements in order followed by the Sentinel, all on the same thread. -/
theorem C19_parallel_each_once (z : Zlib) (file : Bytes) (bs : List FileBlock) (hb : HasBlocks z file bs) (T : Nat) (σ : Type)
    (act : Fin T → Element → σ → σ) (s : σ) (p : Pool T Element σ) (hp : ParallelForEach z file act s p) :
    (p.log.map (·.2.2)).Perm (bs.flatMap elementsOf ++ List.replicate (bs.countP isData) .sentinel) ∧
    ∀ k es, bs[k]? = some (.data es) →
      ∃ i, p.log.filter (fun x => x.2.1 = k) = (es ++ [.sentinel]).map fun e => (i, k, e) := by
  obtain ⟨hi, hd⟩ := forEach_calls hb hp
  constructor
  · refine (done_perm hi hd).trans ?_
    clear hi hp hb
    induction bs with
    | nil => simp
    | cons b bs ih =>
      cases b with
      | header i => simpa [callsFor, elementsOf, isData] using ih
      | data es =>
        simp only [List.map_cons, List.flatten_cons, callsFor, List.flatMap_cons, elementsOf, List.countP_cons, isData]
        simp only [if_true, List.replicate_succ', List.append_assoc]
        refine List.Perm.append_left es ?_
        refine (List.Perm.append_left _ ih).trans ?_
        rw [← List.append_assoc (bs.flatMap elementsOf)]
        exact List.perm_append_comm
  · intro k es hk
    obtain ⟨h1, i, h2⟩ := done_log hi hd k (es ++ [.sentinel]) (by simp [hk, callsFor])
    have hne : logOf p.log k ≠ [] := by
      intro h; rw [h] at h1; simp at h1
    obtain ⟨x, l, hx⟩ := List.exists_cons_of_ne_nil hne
    have hxi := h2 x (by rw [hx]; simp)
    refine ⟨x.1, ?_⟩
    rw [← h1]
    change logOf p.log k = _
    rw [List.map_map]
    conv_lhs => rw [← List.map_id (logOf p.log k)]
    apply List.map_congr_left
    intro y hy
    have := h2 y hy
    rw [← hxi] at this
    simp at this
    have hk : y.2.1 = k := by simpa using (List.mem_filter.mp hy).2
    simp [← this, ← hk]

/-- Decoded blocks contain no sentinels. -/
theorem decoded_real {z : Zlib} {file : Bytes} {d : BlobDesc} {es : List Element} (h : FileBlock.fromBlobDesc z file d = .ok (.data es)) :
    ∀ e ∈ es, e.isSentinel = false := by
  unfold FileBlock.fromBlobDesc at h
  split at h
  · simp at h
  · cases hr : readAt file d.start d.length with
    | none => simp [hr] at h
    | some buf =>
      simp only [hr] at h
      unfold FileBlock.deserialize at h
      cases hb : Pb.Blob.decode buf with
      | none => simp [hb] at h
      | some blob =>
        simp only [hb, Out.bind_eq_ok] at h
        obtain ⟨data, -, h⟩ := h
        unfold FileBlock.new at h
        split at h
        · simp [Out.bind_eq_ok] at h
        · split at h
          · simp only [Out.bind_eq_ok] at h
            obtain ⟨es', he, h⟩ := h
            simp at h; subst h
            unfold parseData at he
            cases hp : Pb.PrimitiveBlock.decode data with
            | none => simp [hp] at he
            | some p =>
              simp only [hp] at he
              refine decode_forall (P := fun e => e.isSentinel = false) he ?_ ?_ ?_ ?_
              · intro tbl _ g _ dn _ gr dg la lo es hes e hmem
                obtain ⟨n, rfl, -⟩ := readDenseGo_forall (P := fun _ => True) (S := fun _ => True) (by simp) (by simp) _ _ _ _ trivial hes e hmem
                rfl
              · intro tbl _ g _ n _ gr dg la lo e h
                simp only [readNode, Out.bind_eq_ok] at h
                obtain ⟨_, _, _, _, h⟩ := h
                simp at h; subst h; rfl
              · intro tbl _ g _ n _ dg e h
                simp only [readWay, Out.bind_eq_ok] at h
                obtain ⟨_, _, _, _, h⟩ := h
                simp at h; subst h; rfl
              · intro tbl _ g _ n _ dg e h
                simp only [readRelation, Out.bind_eq_ok] at h
                obtain ⟨_, _, _, _, _, _, h⟩ := h
                simp at h; subst h; rfl
          · simp at h

theorem hasBlocks_real {z : Zlib} {file : Bytes} {bs : List FileBlock} (hb : HasBlocks z file bs) :
    ∀ b ∈ bs, ∀ e ∈ elementsOf b, e.isSentinel = false := by
  obtain ⟨fuel, hb⟩ := hb
  obtain ⟨ds, -, -, h⟩ := commands_of_blocks fuel {} bs hb
  intro b hbm
  obtain ⟨d, -, hd⟩ : ∃ d ∈ ds, FileBlock.fromBlobDesc z file d = .ok b := by
    clear hb
    induction h with
    | nil => simp at hbm
    | cons h1 _ ih =>
      simp at hbm
      rcases hbm with rfl | hbm
      · exact ⟨_, by simp, h1⟩
      · obtain ⟨d, hd, h⟩ := ih hbm; exact ⟨d, by simp [hd], h⟩
  cases b with
  | header i => simp [elementsOf]
  | data es => exact decoded_real hd

/-- C19. No schedule gets stuck or runs forever: from every reachable state of the pool the run can be completed, and
every step takes one off the work left. -/
theorem C19_parallel_terminates (T : Nat) (hT : 0 < T) (σ : Type) (act : Fin T → Element → σ → σ) (calls : List (List Element)) (s : σ)
    (p : Pool T Element σ) (_hs : Steps act (init calls s) p) :
    (∃ q, Steps act p q ∧ Done q) ∧ (¬ Done p → ∃ q, Step act p q) ∧
      ∀ q, Step act p q → workLeft q < workLeft p :=
  ⟨reaches_done hT p, progress hT p, fun _ hq => by have := step_work hq; omega⟩

/-- A run exists for every readable file. -/
theorem forEach_exists {z : Zlib} {file : Bytes} {bs : List FileBlock} (hb : HasBlocks z file bs) {T : Nat} (hT : 0 < T) {σ : Type}
    (act : Fin T → Element → σ → σ) (s : σ) : ∃ p, ParallelForEach z file act s p := by
  obtain ⟨fuel, hb⟩ := hb
  obtain ⟨ds, h1, h2, -⟩ := commands_of_blocks fuel {} bs hb
  obtain ⟨p, hs, hd⟩ := reaches_done (act := act) hT (init (bs.map callsFor) s)
  exact ⟨p, .run fuel ds _ p h1 h2 hs hd⟩

/-- The blocks of a file made of a header and homogeneous data blocks. -/
theorem hasBlocks_written {z : Zlib} (hz : z.Lossless) {c : CompressionType} {info : FileInfo} {blocks : List (List Element)}
    (hn : ¬ EmptyInfo info) (hh : HeaderFits z c info) (hg : ∀ b ∈ blocks, Homogeneous b) (hfit : ∀ b ∈ blocks, Fits z c b) :
    HasBlocks z (blockBytes z c (.header info :: blocks.map .data))
      (.header (fromHeaderBlock (toHeaderBlock info)) :: blocks.map fun b => .data (b.map Element.quant)) := by
  have ok : ∀ b ∈ FileBlock.header info :: blocks.map .data, BlockOk z c b := by
    intro b hb
    simp at hb
    rcases hb with rfl | ⟨b, hb, rfl⟩
    · exact headerOk hn hh
    · exact ⟨serializeData_ne_nil b, (hfit b hb).1, (hfit b hb).2⟩
  refine ⟨blocks.length + 2, ?_⟩
  rw [takeBlocks_written hz _ ok [] (by simp) {} (by simp) (blocks.length + 2) (by simp)]
  simp only [List.map_cons, List.map_map, FileBlock.readBack]
  congr 2
  apply List.map_congr_left
  intro b hb
  simp [FileBlock.readBack, kept_homogeneous (hg b hb)]

/-- C19 for files written with this library: the function gets exactly the written elements, each once (those on the
coordinate grid; others rounded to it). -/
theorem C19_parallel_reads_written (z : Zlib) (hz : z.Lossless) (c : CompressionType) (info : FileInfo) (es : List Element) (w : Writer)
    (hn : ¬ EmptyInfo info) (hh : HeaderFits z c info) (hfit : RunsFit z c (realOnes es)) (hx : ∀ e ∈ es, Exact e)
    (hw : ((Writer.fromFileInfo info c).writeHeader z).writeAll z es = .ok w)
    (T : Nat) (σ : Type) (act : Fin T → Element → σ → σ) (s : σ) (p : Pool T Element σ)
    (hp : ParallelForEach z (w.close z).file act s p) :
    (realOnes (p.log.map (·.2.2))).Perm (realOnes es) := by
  obtain ⟨blocks, hf, hc, hg⟩ := C11_C12_writer_blocks z c info es w hw
  have hb := hasBlocks_written hz hn hh (fun b hb => (hg b hb).1) fun b hb =>
    hfit b (hc ▸ infix_of_mem_flatten hb) (hg b hb).2
  rw [← hf] at hb
  have h := (C19_parallel_each_once z _ _ hb T σ act s p hp).1
  have hreal := hasBlocks_real hb
  refine ((h.filter _).trans (List.Perm.of_eq ?_))
  rw [List.filter_append]
  have h1 : (List.flatMap elementsOf (FileBlock.header (fromHeaderBlock (toHeaderBlock info)) :: blocks.map fun b => .data (b.map Element.quant)))
      = realOnes es := by
    rw [← map_quant_exact (es := realOnes es) fun e he => hx e (List.mem_of_mem_filter he), ← hc]
    simp [elementsOf, List.flatMap_map, List.map_flatten, List.flatMap_def, Function.comp_def]
  rw [h1]
  have h2 : (List.filter (fun e => !e.isSentinel) (List.replicate (List.countP isData (FileBlock.header (fromHeaderBlock (toHeaderBlock info)) ::
      blocks.map fun b => .data (b.map Element.quant))) Element.sentinel)) = [] := by
    simp [List.filter_replicate, Element.isSentinel]
  rw [h2, List.append_nil]
  unfold realOnes
  rw [List.filter_filter]
  simp

/-! ## C20: counting -/

theorem count_fold {T : Nat} (log : List (Fin T × Nat × Element)) (c : UInt64 × UInt64 × UInt64) :
    log.foldl (fun s x => countAct x.1 x.2.2 s) c =
      (c.1 + UInt64.ofNat ((log.map (·.2.2)).countP (·.isNode)), c.2.1 + UInt64.ofNat ((log.map (·.2.2)).countP (·.isWay)),
        c.2.2 + UInt64.ofNat ((log.map (·.2.2)).countP (·.isRelation))) := by
  induction log generalizing c with
  | nil => simp
  | cons x log ih =>
    rw [List.foldl_cons, ih]
    obtain ⟨i, k, e⟩ := x
    cases e <;> simp [countAct, Element.isNode, Element.isWay, Element.isRelation, UInt64.ofNat_add, UInt64.add_assoc, UInt64.add_comm]

/-- C20. `count_objects` returns the numbers of nodes, ways and relations of the file, for every number of threads and every schedule
(for files with fewer than 2^63 elements). -/
theorem C20_counts_exact (z : Zlib) (file : Bytes) (bs : List FileBlock) (hb : HasBlocks z file bs) (T : Nat)
    (p : Pool T Element (UInt64 × UInt64 × UInt64)) (hp : ParallelForEach z file countAct (0, 0, 0) p)
    (hlen : (bs.flatMap elementsOf).length < 2 ^ 63) :
    (countResult p.shared).1.toInt = (bs.flatMap elementsOf).countP (·.isNode) ∧
    (countResult p.shared).2.1.toInt = (bs.flatMap elementsOf).countP (·.isWay) ∧
    (countResult p.shared).2.2.toInt = (bs.flatMap elementsOf).countP (·.isRelation) := by
  obtain ⟨hi, hd⟩ := forEach_calls hb hp
  have hperm := (C19_parallel_each_once z file bs hb T _ _ _ p hp).1
  rw [hi.fold, count_fold]
  have key : ∀ f : Element → Bool, f .sentinel = false →
      (UInt64.toInt64 (0 + UInt64.ofNat ((p.log.map (·.2.2)).countP f))).toInt = (bs.flatMap elementsOf).countP f := by
    intro f hf
    rw [hperm.countP_eq, List.countP_append, List.countP_replicate]
    simp only [hf, Bool.false_eq_true, if_false, add_zero, UInt64.zero_add]
    have : (bs.flatMap elementsOf).countP f < 2 ^ 63 := lt_of_le_of_lt List.countP_le_length hlen
    generalize (bs.flatMap elementsOf).countP f = n at this
    rw [← Int64.toInt_ofNat_of_lt (n := n) this]
    rfl
  exact ⟨key _ rfl, key _ rfl, key _ rfl⟩


end OsmIo
