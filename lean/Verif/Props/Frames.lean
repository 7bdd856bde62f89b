import Verif.Spec.Frames
import Verif.Props.LenientFile
import Verif.Props.FailingRead
import Verif.Props.Box
import Verif.Props.Header
/-!
# C87: blobs, parallel iteration, counting and the bounding box of any file
-/
namespace OsmIo
open Spec Spec.Lenient
open _root_.Relation (ReflTransGen TransGen)

/-- What `blobs()` says about a frame. -/
def IsDesc (d : BlobDesc) (i : Nat) (f : Pb.BlobHeader × Nat) : Prop :=
  d.index = i ∧ d.start = f.2 ∧ d.t = f.1.type ∧ (d.length : ℤ) = f.1.datasize.toInt % 2 ^ 64

theorem length_mod (i : Int32) : ((i.toInt64.toUInt64.toNat : Nat) : ℤ) = i.toInt % 2 ^ 64 := by
  have h1 := Int32.toInt_lt i
  have h2 := Int32.le_toInt i
  by_cases h0 : i.toInt < 0
  · have e : i.toInt64.toInt = i.toInt := by simp
    have e2 : i.toInt64.toUInt64.toNat = i.toInt64.toBitVec.toNat := rfl
    have e3 : i.toInt64.toInt = i.toInt64.toBitVec.toInt := rfl
    rw [e2]
    rw [e3, BitVec.toInt_eq_toNat_cond] at e
    have := i.toInt64.toBitVec.isLt
    split at e <;> omega
  · rw [pos_length (by omega)]
    omega

theorem next_before (file : Bytes) (it : BlobIter) (hp : it.pos + it.jump < 0) : it.next file = .ok none := by
  unfold BlobIter.next
  simp only
  rw [if_pos hp]

theorem blobs_frames (file : Bytes) (fuel : Nat) : ∀ (it : BlobIter) (ds : List BlobDesc) (e : End), takeBlobs file fuel it = (ds, e) → e ≠ .more →
    ∃ fs, Frames file (it.pos + it.jump) fs (e = .panic) ∧ fs.length = ds.length ∧
      ∀ (k : Nat) d f, ds[k]? = some d → fs[k]? = some f → IsDesc d (it.index + k) f ∧ f.2 ≤ file.length ∧
        d = ⟨it.index + k, f.2, f.1.datasize.toInt64.toUInt64.toNat, f.1.type⟩ := by
  induction fuel with
  | zero => intro it ds e h he; simp [takeBlobs] at h; exact absurd h.2.symm he
  | succ fuel ih =>
    intro it ds e h he
    by_cases h0 : it.pos + it.jump < 0
    · simp only [takeBlobs, next_before file it h0, Prod.mk.injEq] at h
      obtain ⟨rfl, rfl⟩ := h
      exact ⟨[], .before h0, rfl, by simp⟩
    · obtain ⟨pos, hp⟩ := Int.eq_ofNat_of_zero_le (not_lt.1 h0)
      rw [hp]
      rcases next_cases file it pos hp with ⟨n, h1, h2, e1⟩ | ⟨hd, start, h1, e1⟩ | ⟨h1, h2, e1⟩
      · simp only [takeBlobs, e1, Prod.mk.injEq] at h
        obtain ⟨rfl, rfl⟩ := h
        exact ⟨[], .long h1 h2, rfl, by simp⟩
      · simp only [takeBlobs, e1, Prod.mk.injEq] at h
        obtain ⟨rfl, rfl⟩ := h
        obtain ⟨fs, g1, g2, g3⟩ := ih ⟨start, hd.datasize.toInt, it.index + 1⟩ _ _ rfl he
        refine ⟨(hd, start) :: fs, .frame h1 g1, by simp [g2], ?_⟩
        intro k d f hk hf
        cases k with
        | zero =>
          simp at hk hf
          subst hk hf
          exact ⟨⟨rfl, rfl, rfl, length_mod _⟩, headerAt_bound h1, rfl⟩
        | succ k =>
          simp at hk hf
          have := g3 k d f hk hf
          simp only at this
          rwa [show it.index + 1 + k = it.index + (k + 1) by omega] at this
      · simp only [takeBlobs, e1, Prod.mk.injEq] at h
        obtain ⟨rfl, rfl⟩ := h
        exact ⟨[], .done h1 h2, rfl, by simp⟩

theorem frames_takeBlobs {file : Bytes} {pos : ℤ} {fs : List (Pb.BlobHeader × Nat)} {panic : Bool} (h : Frames file pos fs panic) :
    ∀ it : BlobIter, it.pos + it.jump = pos → ∃ fuel ds, takeBlobs file fuel it = (ds, if panic then .panic else .done) := by
  induction h with
  | before h => intro it hp; exact ⟨1, [], by simp [takeBlobs, next_before file it (by omega)]⟩
  | done h1 h2 =>
    intro it hp
    rcases next_cases file it _ hp with ⟨n, g1, g2, -⟩ | ⟨hd, start, g1, -⟩ | ⟨-, -, e⟩
    · exact absurd (h1 _ g1) (by omega)
    · exact (h2 _ _ g1).elim
    · exact ⟨1, [], by simp [takeBlobs, e]⟩
  | long h1 h2 =>
    intro it hp
    rcases next_cases file it _ hp with ⟨n, g1, g2, e⟩ | ⟨hd, start, ⟨hdr, r, l, s, -⟩, -⟩ | ⟨g, -, -⟩
    · exact ⟨1, [], by simp [takeBlobs, e]⟩
    · have := lengthAt_unique h1 l
      omega
    · exact absurd (g _ h1) (by omega)
  | @frame pos hd start rest panic h1 _ ih =>
    intro it hp
    rcases next_cases file it _ hp with ⟨n, g1, g2, -⟩ | ⟨hd', start', g, e⟩ | ⟨-, g, -⟩
    · obtain ⟨hdr, r, l, s, -⟩ := h1
      have := lengthAt_unique g1 l
      omega
    · obtain ⟨rfl, rfl⟩ := headerAt_unique h1 g
      obtain ⟨fuel, ds, ih⟩ := ih ⟨start, hd.datasize.toInt, it.index + 1⟩ rfl
      refine ⟨fuel + 1, (takeBlobs file (fuel + 1) it).1, Prod.ext rfl ?_⟩
      rw [takeBlobs, e]
      simp only [ih]
    · exact (g _ _ h1).elim

theorem takeBlobs_det (file : Bytes) (fuel : Nat) : ∀ (fuel' : Nat) (it : BlobIter) (ds ds' : List BlobDesc) (e e' : End),
    takeBlobs file fuel it = (ds, e) → takeBlobs file fuel' it = (ds', e') → e ≠ .more → e' ≠ .more → ds = ds' ∧ e = e' := by
  induction fuel with
  | zero => intro fuel' it ds ds' e e' h _ he; simp [takeBlobs] at h; exact absurd h.2.symm he
  | succ fuel ih =>
    intro fuel' it ds ds' e e' h h' he he'
    cases fuel' with
    | zero => simp [takeBlobs] at h'; exact absurd h'.2.symm he'
    | succ fuel' =>
      unfold takeBlobs at h h'
      cases hn : it.next file with
      | ok o =>
        rw [hn] at h h'
        cases o with
        | none =>
          simp only [Prod.mk.injEq] at h h'
          exact ⟨h.1.symm.trans h'.1, h.2.symm.trans h'.2⟩
        | some x =>
          simp only [Prod.mk.injEq] at h h'
          obtain ⟨rfl, rfl⟩ := h
          obtain ⟨rfl, rfl⟩ := h'
          obtain ⟨a, b⟩ := ih fuel' x.2 _ _ _ _ rfl rfl he he'
          rw [a]
          exact ⟨rfl, b⟩
      | err => rw [hn] at h h'; simp only [Prod.mk.injEq] at h h'; exact ⟨h.1.symm.trans h'.1, h.2.symm.trans h'.2⟩
      | panic => rw [hn] at h h'; simp only [Prod.mk.injEq] at h h'; exact ⟨h.1.symm.trans h'.1, h.2.symm.trans h'.2⟩

theorem frames_unique {file : Bytes} {pos : ℤ} {fs fs' : List (Pb.BlobHeader × Nat)} {p p' : Bool} (h : Frames file pos fs p) (h' : Frames file pos fs' p') :
    fs = fs' ∧ p = p' := by
  induction h generalizing fs' p' with
  | before h =>
    generalize hq : ‹ℤ› = q at *
    cases h' <;> first | exact ⟨rfl, rfl⟩ | omega
  | @done pos h1 h2 =>
    generalize hq : (pos : ℤ) = q at h'
    cases h' with
    | before => exact ⟨rfl, rfl⟩
    | done => exact ⟨rfl, rfl⟩
    | long c d => obtain rfl := Int.ofNat.inj hq; exact absurd (h1 _ c) (by omega)
    | frame c => obtain rfl := Int.ofNat.inj hq; exact (h2 _ _ c).elim
  | @long pos n h1 h2 =>
    generalize hq : (pos : ℤ) = q at h'
    cases h' with
    | before => omega
    | done c => obtain rfl := Int.ofNat.inj hq; exact absurd (c _ h1) (by omega)
    | long => exact ⟨rfl, rfl⟩
    | frame c =>
      obtain rfl := Int.ofNat.inj hq
      obtain ⟨hdr, r, l, s, -⟩ := c
      have := lengthAt_unique h1 l
      omega
  | @frame pos hd start rest panic h1 _ ih =>
    generalize hq : (pos : ℤ) = q at h'
    cases h' with
    | before => omega
    | done _ c => obtain rfl := Int.ofNat.inj hq; exact (c _ _ h1).elim
    | long c d =>
      obtain rfl := Int.ofNat.inj hq
      obtain ⟨hdr, r, l, s, -⟩ := h1
      have := lengthAt_unique c l
      omega
    | frame c d =>
      obtain rfl := Int.ofNat.inj hq
      obtain ⟨rfl, rfl⟩ := headerAt_unique h1 c
      obtain ⟨rfl, rfl⟩ := ih d
      exact ⟨rfl, rfl⟩

/-- C87. `blobs()` on any file: it yields exactly the frames found by going from header to header, and then ends or panics as described. -/
theorem C87_blobs (file : Bytes) (panic : Bool) (ds : List BlobDesc) :
    (∃ fuel, takeBlobs file fuel {} = (ds, if panic then .panic else .done)) ↔
    ∃ fs, Frames file 0 fs panic ∧ fs.length = ds.length ∧ ∀ (k : Nat) d f, ds[k]? = some d → fs[k]? = some f →
      d.index = k ∧ d.start = f.2 ∧ d.t = f.1.type ∧ (d.length : ℤ) = f.1.datasize.toInt % 2 ^ 64 := by
  constructor
  · rintro ⟨fuel, h⟩
    obtain ⟨fs, h1, h2, h3⟩ := blobs_frames file fuel {} ds _ h (by cases panic <;> simp)
    refine ⟨fs, ?_, h2, fun k d f a b => by simpa [IsDesc] using (h3 k d f a b).1⟩
    cases panic <;> simpa using h1
  · rintro ⟨fs, h1, h2, h3⟩
    obtain ⟨fuel, ds', h⟩ := frames_takeBlobs h1 {} rfl
    obtain ⟨fs', g1, g2, g3⟩ := blobs_frames file fuel {} ds' _ h (by cases panic <;> simp)
    obtain ⟨rfl, -⟩ := frames_unique (pos := 0) h1 (by simpa using g1)
    refine ⟨fuel, ?_⟩
    rw [h]
    congr 1
    apply List.ext_getElem (by omega)
    intro k hk1 hk2
    have hk : k < fs.length := by omega
    obtain ⟨a1, a2, a3, a4⟩ := (g3 k _ _ (List.getElem?_eq_getElem hk1) (List.getElem?_eq_getElem hk)).1
    obtain ⟨b1, b2, b3, b4⟩ := h3 k _ _ (List.getElem?_eq_getElem hk2) (List.getElem?_eq_getElem hk)
    generalize ds'[k] = x at *
    generalize ds[k] = y at *
    cases x; cases y
    simp only [BlobDesc.mk.injEq] at *
    refine ⟨by simpa [b1] using a1, a2.trans b2.symm, by omega, a3.trans b3.symm⟩

/-! ### Does it end? -/

theorem leads_fun {file : Bytes} {a b b' : ℤ} (h : Leads file a b) (h' : Leads file a b') : b = b' := by
  obtain ⟨n, hd, s, rfl, h1, rfl⟩ := h
  obtain ⟨n', hd', s', e, h1', rfl⟩ := h'
  obtain rfl := Int.ofNat.inj e
  obtain ⟨rfl, rfl⟩ := headerAt_unique h1 h1'
  rfl

theorem leads_range {file : Bytes} {a b : ℤ} (h : Leads file a b) : 0 ≤ a ∧ a < file.length := by
  obtain ⟨n, hd, s, rfl, h1, rfl⟩ := h
  have h2 := headerAt_bound h1
  obtain ⟨hdr, r, l, -, -, -, rfl⟩ := h1
  omega

theorem frames_cases (file : Bytes) (pos : ℤ) : (∃ panic, Frames file pos [] panic ∧ ∀ pos', ¬ Leads file pos pos') ∨
    ∃ h start pos', Leads file pos pos' ∧ ∀ rest panic, Frames file pos' rest panic → Frames file pos ((h, start) :: rest) panic := by
  by_cases h0 : pos < 0
  · exact .inl ⟨false, .before h0, fun _ h => by have := leads_range h; omega⟩
  · obtain ⟨n, rfl⟩ := Int.eq_ofNat_of_zero_le (not_lt.1 h0)
    rcases next_cases file ⟨n, 0, 0⟩ n (by simp) with ⟨m, h1, h2, -⟩ | ⟨hd, start, h1, -⟩ | ⟨h1, h2, -⟩
    · refine .inl ⟨true, .long h1 h2, ?_⟩
      rintro _ ⟨n', hd', s', e, ⟨hdr, r, l, s, -⟩, -⟩
      obtain rfl := Int.ofNat.inj e
      have := lengthAt_unique h1 l
      omega
    · exact .inr ⟨hd, start, _, ⟨n, hd, start, rfl, h1, rfl⟩, fun _ _ hr => .frame h1 hr⟩
    · refine .inl ⟨false, .done h1 h2, ?_⟩
      rintro _ ⟨n', hd', s', e, hh, -⟩
      obtain rfl := Int.ofNat.inj e
      exact h2 _ _ hh

theorem frames_no_cycle {file : Bytes} {pos : ℤ} {fs : List (Pb.BlobHeader × Nat)} {panic : Bool} (h : Frames file pos fs panic) :
    ∀ q, ReflTransGen (Leads file) pos q → ¬ TransGen (Leads file) q q := by
  have stop : ∀ pos panic, Frames file pos [] panic → ∀ q, ReflTransGen (Leads file) pos q → ¬ TransGen (Leads file) q q := by
    intro pos panic h q h1 h2
    have hno : ∀ b, ¬ Leads file pos b := by
      intro b hb
      rcases frames_cases file pos with ⟨_, -, g⟩ | ⟨hd, start, pos', g1, g2⟩
      · exact g _ hb
      · obtain ⟨n, hd, s, rfl, k1, k2⟩ := hb
        generalize hq : (n : ℤ) = q at h
        generalize hl : ([] : List (Pb.BlobHeader × Nat)) = l at h
        cases h with
        | before => omega
        | done _ c => obtain rfl := Int.ofNat.inj hq; exact c _ _ k1
        | long c d =>
          obtain rfl := Int.ofNat.inj hq
          obtain ⟨hdr, r, l, s, -⟩ := k1
          have := lengthAt_unique c l
          omega
        | frame => cases hl
    rcases ReflTransGen.cases_head h1 with rfl | ⟨b, hb, -⟩
    · obtain ⟨b, hb, -⟩ := TransGen.head'_iff.1 h2
      exact hno b hb
    · exact hno b hb
  induction h with
  | before h => exact stop _ _ (.before h)
  | done h1 h2 => exact stop _ _ (.done h1 h2)
  | long h1 h2 => exact stop _ _ (.long h1 h2)
  | @frame pos hd start rest panic h1 _ ih =>
    intro q hq hc
    have hl : Leads file pos (start + hd.datasize.toInt) := ⟨pos, hd, start, rfl, h1, rfl⟩
    rcases ReflTransGen.cases_head hq with e | ⟨b, hb, hr⟩
    · rw [← e] at hc
      obtain ⟨b, hb, hr⟩ := TransGen.head'_iff.1 hc
      have := leads_fun hb hl
      subst this
      exact ih _ .refl (TransGen.tail' hr hl)
    · have := leads_fun hb hl
      subst this
      exact ih _ hr hc

theorem no_frames_cycle {file : Bytes} (h : ∀ fs panic, ¬ Frames file 0 fs panic) :
    ∃ q, ReflTransGen (Leads file) 0 q ∧ TransGen (Leads file) q q := by
  let P : ℤ → Prop := fun q => ReflTransGen (Leads file) 0 q ∧ ∀ fs panic, ¬ Frames file q fs panic
  have next : ∀ x : {q // P q}, ∃ y : {q // P q}, Leads file x.1 y.1 := by
    rintro ⟨q, h1, h2⟩
    rcases frames_cases file q with ⟨p, g, -⟩ | ⟨hd, start, pos', g1, g2⟩
    · exact (h2 _ _ g).elim
    · exact ⟨⟨pos', h1.tail g1, fun fs p hf => h2 _ _ (g2 fs p hf)⟩, g1⟩
  choose nx hnx using next
  let g : Nat → {q // P q} := fun n => nx^[n] ⟨0, .refl, h⟩
  have hg : ∀ n, Leads file (g n).1 (g (n + 1)).1 := by
    intro n
    have : g (n + 1) = nx (g n) := Function.iterate_succ_apply' _ _ _
    rw [this]
    exact hnx _
  have hmaps : ∀ n ∈ Finset.range (file.length + 1), (g n).1.toNat ∈ Finset.range file.length := by
    intro n _
    have := leads_range (hg n)
    rw [Finset.mem_range]
    omega
  obtain ⟨i, -, j, -, hne, he⟩ := Finset.exists_ne_map_eq_of_card_lt_of_maps_to (by simp) hmaps
  have he' : (g i).1 = (g j).1 := by
    have h1 := leads_range (hg i)
    have h2 := leads_range (hg j)
    omega
  have trans : ∀ i k, TransGen (Leads file) (g i).1 (g (i + (k + 1))).1 := by
    intro i k
    induction k with
    | zero => exact .single (hg i)
    | succ k ih => exact ih.tail (hg _)
  rcases lt_or_gt_of_ne hne with hlt | hlt
  · refine ⟨(g i).1, (g i).2.1, ?_⟩
    have := trans i (j - i - 1)
    rw [show i + (j - i - 1 + 1) = j by omega] at this
    rwa [← he'] at this
  · refine ⟨(g j).1, (g j).2.1, ?_⟩
    have := trans j (i - j - 1)
    rw [show j + (i - j - 1 + 1) = i by omega] at this
    rwa [he'] at this

theorem takeBlobs_more (file : Bytes) (fuel : Nat) : ∀ it : BlobIter, (takeBlobs file fuel it).2 = .more → (takeBlobs file fuel it).1.length = fuel := by
  induction fuel with
  | zero => intro it _; rfl
  | succ fuel ih =>
    intro it h
    unfold takeBlobs at h ⊢
    cases hn : it.next file with
    | ok o =>
      rw [hn] at h
      cases o with
      | none => simp at h
      | some x => simp only [List.length_cons] at h ⊢; rw [ih _ h]
    | err => rw [hn] at h; simp at h
    | panic => rw [hn] at h; simp at h

/-- C87. When `blobs()` ends: exactly if going from header to header never comes back to a place it has been at. Otherwise it yields blobs for ever. -/
theorem C87_ends (file : Bytes) :
    ((∃ fs panic, Frames file 0 fs panic) ↔ ¬ ∃ pos, ReflTransGen (Leads file) 0 pos ∧ TransGen (Leads file) pos pos) ∧
    ((∃ pos, ReflTransGen (Leads file) 0 pos ∧ TransGen (Leads file) pos pos) →
      ∀ n, (takeBlobs file n {}).2 = .more ∧ (takeBlobs file n {}).1.length = n) := by
  have key : (∃ fs panic, Frames file 0 fs panic) ↔ ¬ ∃ pos, ReflTransGen (Leads file) 0 pos ∧ TransGen (Leads file) pos pos := by
    constructor
    · rintro ⟨fs, panic, h⟩ ⟨pos, h1, h2⟩
      exact frames_no_cycle h pos h1 h2
    · intro h
      by_contra hn
      exact h (no_frames_cycle fun fs p hf => hn ⟨fs, p, hf⟩)
  refine ⟨key, fun hc n => ?_⟩
  have : (takeBlobs file n {}).2 = .more := by
    by_contra hm
    obtain ⟨fs, h1, -⟩ := blobs_frames file n {} _ _ rfl hm
    exact key.1 ⟨fs, _, by simpa using h1⟩ hc
  exact ⟨this, takeBlobs_more file n _ this⟩

/-! ### Parallel iteration -/

theorem gives_calls (z : Zlib) (file : Bytes) (hl : file.length < 2 ^ 63) (f : Pb.BlobHeader × Nat) (i : Nat) (hs : f.2 ≤ file.length) :
    ∃ share, Gives z.stream file f share ∧
      (iterationCalls z file ⟨i, f.2, f.1.datasize.toInt64.toUInt64.toNat, f.1.type⟩).getD [] = (match share with | some es => es ++ [.sentinel] | none => []) ∧
      (boxCalls z file ⟨i, f.2, f.1.datasize.toInt64.toUInt64.toNat, f.1.type⟩).getD [] = (match share with | some es => [blockBox es] | none => []) := by
  unfold iterationCalls boxCalls
  rcases fromBlobDesc_cases z file hl f.1 f.2 i hs with ⟨b, hb, e, hbl⟩ | ⟨hb, e⟩
  · rw [e]
    rcases deserialize_readable z f.1.type b hbl with ⟨fb, e3, hr⟩ | ⟨e3, hr⟩
    · rw [e3]
      cases fb with
      | header inf =>
        refine ⟨none, .nothing fun b' es hb' hr' => ?_, rfl, rfl⟩
        rw [bodyAt_unique hb' hb] at hr'
        have := readable_unique hbl hr hr'
        cases this
      | data es => exact ⟨some es, .data hb hr, rfl, rfl⟩
    · refine ⟨none, .nothing fun b' es hb' hr' => hr _ (by rwa [bodyAt_unique hb' hb] at hr'), ?_, ?_⟩
      · cases hd : FileBlock.deserialize z f.1.type b with
        | ok fb => exact (e3 _ hd).elim
        | err => rfl
        | panic => rfl
      · cases hd : FileBlock.deserialize z f.1.type b with
        | ok fb => exact (e3 _ hd).elim
        | err => rfl
        | panic => rfl
  · refine ⟨none, .nothing fun b' es hb' => (hb _ hb').elim, ?_, ?_⟩
    · cases hd : FileBlock.fromBlobDesc z file ⟨i, f.2, f.1.datasize.toInt64.toUInt64.toNat, f.1.type⟩ with
      | ok fb => exact (e _ hd).elim
      | err => rfl
      | panic => rfl
    · cases hd : FileBlock.fromBlobDesc z file ⟨i, f.2, f.1.datasize.toInt64.toUInt64.toNat, f.1.type⟩ with
      | ok fb => exact (e _ hd).elim
      | err => rfl
      | panic => rfl

theorem shares_exist (z : Zlib) (file : Bytes) (hl : file.length < 2 ^ 63) (fuel : Nat) (ds : List BlobDesc) (h : takeBlobs file fuel {} = (ds, .done)) :
    ∃ fs shares, Frames file 0 fs false ∧ List.Forall₂ (Gives z.stream file) fs shares ∧
      (ds.map fun d => (iterationCalls z file d).getD []) = shares.map (fun s => match s with | some es => es ++ [.sentinel] | none => []) ∧
      (ds.map fun d => (boxCalls z file d).getD []) = shares.map (fun s => match s with | some es => [blockBox es] | none => []) := by
  obtain ⟨fs, h1, h2, h3⟩ := blobs_frames file fuel {} ds _ h (by simp)
  refine ⟨fs, ?_⟩
  suffices hh : ∀ (j : Nat) (fs : List (Pb.BlobHeader × Nat)) (ds : List BlobDesc), fs.length = ds.length →
      (∀ (k : Nat) d f, ds[k]? = some d → fs[k]? = some f → f.2 ≤ file.length ∧ d = ⟨j + k, f.2, f.1.datasize.toInt64.toUInt64.toNat, f.1.type⟩) →
      ∃ shares, List.Forall₂ (Gives z.stream file) fs shares ∧
        (ds.map fun d => (iterationCalls z file d).getD []) = shares.map (fun s => match s with | some es => es ++ [.sentinel] | none => []) ∧
        (ds.map fun d => (boxCalls z file d).getD []) = shares.map (fun s => match s with | some es => [blockBox es] | none => []) by
    obtain ⟨shares, g1, g2, g3⟩ := hh 0 fs ds h2 (fun k d f a b => by simpa using (h3 k d f a b).2)
    exact ⟨shares, by simpa using h1, g1, g2, g3⟩
  clear h1 h2 h3 h
  intro j fs
  induction fs generalizing j with
  | nil => intro ds h2 _; cases ds with | nil => exact ⟨[], .nil, rfl, rfl⟩ | cons => simp at h2
  | cons f fs ih =>
    intro ds h2 h3
    cases ds with
    | nil => simp at h2
    | cons d ds =>
      obtain ⟨a, rfl⟩ := h3 0 d f rfl rfl
      obtain ⟨share, g1, g2, g3⟩ := gives_calls z file hl f (j + 0) a
      obtain ⟨shares, k1, k2, k3⟩ := ih (j + 1) ds (by simpa using h2) (fun k d f a b => by
        have := h3 (k + 1) d f (by simpa using a) (by simpa using b)
        rwa [show j + (k + 1) = j + 1 + k by omega] at this)
      exact ⟨share :: shares, .cons g1 k1, by rw [List.map_cons, List.map_cons, k2, g2], by rw [List.map_cons, List.map_cons, k3, g3]⟩

/-- The calls made with the elements of a frame's block: those and a Sentinel. -/
def withSentinel : Option (List Element) → List Element
  | some es => es ++ [.sentinel]
  | none => []

variable {T : Nat} {σ : Type}

/-- C87. `parallel_for_each` on any file, at every moment of every run: the calls made so far for the `k`-th frame are, in order, the first ones for its data block
(its elements, then a Sentinel), if it is one that can be read; else there are none, and nothing tells. When it has returned and no call has failed, all these calls have been made. -/
theorem C87_parallel (z : Zlib) (file : Bytes) (hl : file.length < 2 ^ 63) (f : Fin T → Element → σ → σ × Bool) (cap : Nat) (s : σ) (ds : List BlobDesc) (p : ForEach T σ)
    (h : ForEachOccurs z file f cap s ds p) :
    ∃ fs shares, Frames file 0 fs false ∧ List.Forall₂ (Gives z.stream file) fs shares ∧ (∀ x ∈ p.log, x.2.1 < fs.length) ∧
      (∀ (k : Nat) share, shares[k]? = some share → ((p.log.filter fun x => x.2.1 = k).map (·.2.2.1)) <+: withSentinel share) ∧
      (p.returned = true → (∀ x ∈ p.log, x.2.2.2 = true) →
        (∀ (k : Nat) share, shares[k]? = some share → ((p.log.filter fun x => x.2.1 = k).map (·.2.2.1)) = withSentinel share) ∧
        (p.log.map (·.2.2.1)).Perm (shares.flatMap withSentinel)) := by
  have hb := (C69_effect z file f cap s ds p h).1
  obtain ⟨fuel, p, hds, hs⟩ := h
  obtain ⟨fs, shares, h1, h2, h3, -⟩ := shares_exist z file hl fuel ds hds
  have hi := ForEach.steps_inv (ForEach.init_inv _ s) hs
  have e : shares.map withSentinel = (ds.map (iterationCalls z file)).map (·.getD []) := by
    rw [List.map_map]
    refine Eq.trans ?_ h3.symm
    apply List.map_congr_left
    intro a _
    cases a <;> rfl
  have hlen : fs.length = ds.length := by
    have := congrArg List.length e
    simp at this
    rw [h2.length_eq, this]
  have hk : ∀ (k : Nat) share, shares[k]? = some share → ∃ c, (ds.map (iterationCalls z file))[k]? = some c ∧ c.getD [] = withSentinel share := by
    intro k share hk
    have h4 := congrArg (fun l : List (List Element) => l[k]?) e
    simp only [List.getElem?_map, hk, Option.map_some] at h4 ⊢
    cases hd : ds[k]? with
    | none => rw [hd] at h4; simp at h4
    | some d =>
      rw [hd] at h4
      simp only [Option.map_some, Option.some.injEq] at h4
      exact ⟨_, rfl, h4.symm⟩
  refine ⟨fs, shares, h1, h2, fun x hx => by rw [hlen]; exact hb x hx, ?_, fun hr hok => ⟨?_, ?_⟩⟩
  · intro k share hs
    obtain ⟨c, hc, e⟩ := hk k share hs
    rw [← e]
    exact (forEach_share hi k c hc).1
  · intro k share hs
    obtain ⟨c, hc, e⟩ := hk k share hs
    rw [← e]
    exact (forEach_share hi k c hc).2 hr hok
  · have := (forEach_parts hi).2 hr hok
    rwa [List.flatMap_def, ← e, ← List.flatMap_def] at this

/-- C87. `count_objects` on any file: when it returns, the numbers are those of the data blocks that can be read. -/
theorem C87_counts (z : Zlib) (file : Bytes) (hl : file.length < 2 ^ 63) (cap : Nat) (ds : List BlobDesc) (p : ForEach T (UInt64 × UInt64 × UInt64))
    (h : ForEachOccurs z file (fun i e c => (countAct i e c, true)) cap (0, 0, 0) ds p) (hr : p.returned = true) :
    ∃ fs shares, Frames file 0 fs false ∧ List.Forall₂ (Gives z.stream file) fs shares ∧
      countResult p.shared = (Int64.ofNat ((shares.flatMap (·.getD [])).countP (·.isNode)), Int64.ofNat ((shares.flatMap (·.getD [])).countP (·.isWay)),
        Int64.ofNat ((shares.flatMap (·.getD [])).countP (·.isRelation))) := by
  obtain ⟨-, heff, hres⟩ := C69_effect z file _ cap _ ds p h
  obtain ⟨fs, shares, h1, h2, -, -, h4⟩ := C87_parallel z file hl _ cap _ ds p h
  have hok : ∀ x ∈ p.log, x.2.2.2 = true := by
    intro x hx
    obtain ⟨l, r, e⟩ := List.append_of_mem hx
    exact hres l x r e
  have hp := (h4 hr hok).2
  refine ⟨fs, shares, h1, h2, ?_⟩
  have key : ∀ g : Element → Bool, g .sentinel = false → (p.log.map (·.2.2.1)).countP g = (shares.flatMap (·.getD [])).countP g := by
    intro g hg
    rw [hp.countP_eq]
    clear hp h2 h4
    induction shares with
    | nil => rfl
    | cons s shares ih =>
      rw [List.flatMap_cons, List.flatMap_cons, List.countP_append, List.countP_append, ih]
      cases s <;> simp [withSentinel, hg]
  have hf := count_fold (T := T) (p.log.map fun x => (x.1, x.2.1, x.2.2.1)) (0, 0, 0)
  rw [List.foldl_map] at hf
  rw [heff]
  refine (congrArg countResult hf).trans ?_
  simp only [List.map_map, Function.comp_def, countResult]
  rw [key _ rfl, key _ rfl, key _ rfl]
  simp only [UInt64.zero_add]
  rfl

/-- C87. The bounding box of any file: when `BoundingBoxCalculator::calc` returns, the box is the smallest one that contains the nodes at the beginning of each data block
that can be read; if there are none, it panics. -/
theorem C87_box (z : Zlib) (file : Bytes) (hl : file.length < 2 ^ 63) (p : Pool T (Option BoundingBox) (Option BoundingBox)) (h : BoxReturned z file p) :
    ∃ fs shares, Frames file 0 fs false ∧ List.Forall₂ (Gives z.stream file) fs shares ∧
      (coordinates (shares.flatMap fun s => (s.getD []).takeWhile Element.isNode) ≠ [] →
        ∃ b, boxResult p.shared = .ok b ∧ Tight b (coordinates (shares.flatMap fun s => (s.getD []).takeWhile Element.isNode))) ∧
      (coordinates (shares.flatMap fun s => (s.getD []).takeWhile Element.isNode) = [] → boxResult p.shared = .panic) := by
  obtain ⟨fuel, ds, p, hds, hs, hd⟩ := h
  obtain ⟨fs, shares, h1, h2, -, h3⟩ := shares_exist z file hl fuel ds hds
  refine ⟨fs, shares, h1, h2, ?_⟩
  have hi := Pool.steps_inv (Pool.init_inv boxAct _ none) hs
  have hf := hi.fold
  have : p.shared = (p.log.map (·.2.2)).foldl mergeResult none := by
    rw [hf, List.foldl_map]; rfl
  have hperm := Pool.done_perm hi hd
  rw [h3] at hperm
  have hfold := hperm.foldl_eq' (fun x _ y _ r => mergeResult_comm r x y) none
  rw [hfold] at this
  have key : TightOpt p.shared (coordinates (shares.flatMap fun s => (s.getD []).takeWhile Element.isNode)) := by
    rw [this]
    clear hfold this hf hperm hi hs hd h3 h2 h1 hds
    suffices h : ∀ (o : Option BoundingBox) (cs : List Coordinate), TightOpt o cs →
        TightOpt ((shares.map (fun s => match s with | some es => [blockBox es] | none => [])).flatten.foldl mergeResult o)
          (cs ++ coordinates (shares.flatMap fun s => (s.getD []).takeWhile Element.isNode)) by
      simpa using h none [] rfl
    induction shares with
    | nil => intro o cs h; simpa [coordinates] using h
    | cons s shares ih =>
      intro o cs h
      cases s with
      | none => simpa using ih o cs h
      | some es =>
        have := ih _ _ (tightOpt_merge h (blockBox_tight es))
        simpa [coordinates] using this
  generalize coordinates (shares.flatMap fun s => (s.getD []).takeWhile Element.isNode) = cs at key
  cases hsh : p.shared with
  | none => rw [hsh] at key; exact ⟨fun h => absurd key h, fun _ => rfl⟩
  | some b => rw [hsh] at key; exact ⟨fun _ => ⟨b, rfl, key.2⟩, fun h => absurd h key.1⟩

/-! ### A file with a damaged block -/

/-- A header, a data block whose blob is one byte that is no message, a data block (`exOddBlob`). -/
def exHoleFile : Bytes :=
  [0, 0, 0, 13, 0x0a, 9, 0x4f, 0x53, 0x4d, 0x48, 0x65, 0x61, 0x64, 0x65, 0x72, 0x18, 2, 0x0a, 0] ++
  [0, 0, 0, 11, 0x0a, 7, 0x4f, 0x53, 0x4d, 0x44, 0x61, 0x74, 0x61, 0x18, 1, 0xff] ++
  [0, 0, 0, 11, 0x0a, 7, 0x4f, 0x53, 0x4d, 0x44, 0x61, 0x74, 0x61, 0x18, 52] ++ exOddBlob

theorem exHole_blobs : takeBlobs exHoleFile 4 {} = ([⟨0, 17, 2, "OSMHeader"⟩, ⟨1, 34, 1, "OSMData"⟩, ⟨2, 50, 52, "OSMData"⟩], .done) := by decide +kernel

theorem exHole_calls : ([⟨0, 17, 2, "OSMHeader"⟩, ⟨1, 34, 1, "OSMData"⟩, ⟨2, 50, 52, "OSMData"⟩] : List BlobDesc).map (iterationCalls exZ exHoleFile) =
    [some [], none, some (exOddElements ++ [.sentinel])] := by decide +kernel

/-- C87, as it is: a data block that cannot be read is left out by `parallel_for_each` and nothing tells, while reading the same file element by element panics. -/
theorem C87_silent : ReadsElements exZ exHoleFile [] .panic ∧
    ∃ (ds : List BlobDesc) (p : ForEach 2 (UInt64 × UInt64 × UInt64)), ForEachOccurs exZ exHoleFile (fun i e c => (countAct i e c, true)) 1024 (0, 0, 0) ds p ∧
      p.returned = true ∧ (p.log.map (·.2.2.1)).Perm (exOddElements ++ [.sentinel]) ∧ countResult p.shared = (3, 0, 0) := by
  constructor
  · have hb : takeBlocks exZ exHoleFile (exHoleFile.length + 1) {} = ([.header exOddInfo], .panic) := by decide +kernel
    refine (C86_elements exZ exHoleFile (by decide) _ _).2 ⟨_, true, true,
      ((C86_blocks exZ exHoleFile (by decide) (exHoleFile.length + 1) (by omega)).2 [.header exOddInfo] _).2 ?_, ?_, rfl⟩
    · rw [hb]; exact ⟨rfl, by simp⟩
    · exact .nil
  · have h0 : ForEachOccurs exZ exHoleFile (T := 2) (fun i e c => (countAct i e c, true)) 1024 (0, 0, 0) _ (ForEach.init _ (0, 0, 0)) := .run 4 _ exHole_blobs .refl
    obtain ⟨q, hq, -, hr⟩ := (C69_no_deadlock exZ exHoleFile _ 1024 _ _ (by decide) (by decide) _ h0).2.1 (fun _ => rfl)
    obtain ⟨-, heff, hres⟩ := C69_effect exZ exHoleFile _ 1024 _ _ q hq
    have hok : ∀ x ∈ q.log, x.2.2.2 = true := by
      intro x hx
      obtain ⟨l, r, e⟩ := List.append_of_mem hx
      exact hres l x r e
    refine ⟨_, q, hq, hr, ?_⟩
    have hp : (q.log.map (·.2.2.1)).Perm (exOddElements ++ [.sentinel]) := by
      obtain ⟨fuel, q, -, hs⟩ := hq
      have := (forEach_parts (ForEach.steps_inv (ForEach.init_inv _ _) hs)).2 hr hok
      rw [exHole_calls] at this
      simpa using this
    refine ⟨hp, ?_⟩
    have hf := count_fold (T := 2) (q.log.map fun x => (x.1, x.2.1, x.2.2.1)) (0, 0, 0)
    rw [List.foldl_map] at hf
    rw [heff]
    refine (congrArg countResult hf).trans ?_
    simp only [List.map_map, Function.comp_def]
    rw [hp.countP_eq, hp.countP_eq, hp.countP_eq]
    decide

/-- Going from header to header in `loopFile` leads from the beginning to the beginning. -/
example : ∃ pos, ReflTransGen (Leads loopFile) 0 pos ∧ TransGen (Leads loopFile) pos pos := by
  by_contra h
  obtain ⟨fs, p, hf⟩ := (C87_ends loopFile).1.2 h
  obtain ⟨fuel, ds, e⟩ := frames_takeBlobs hf {} rfl
  have := (C32_negative_size_loops fuel).1
  rw [e] at this
  cases p <;> simp at this

example : ∃ fs, Frames exHoleFile 0 fs false ∧ fs.length = 3 := by
  obtain ⟨fs, h, h2, -⟩ := (C87_blobs exHoleFile false _).1 ⟨4, exHole_blobs⟩
  exact ⟨fs, h, h2⟩

/-- The bounding box of the file, though a block is missing. -/
example : ∃ p : Pool 1 (Option BoundingBox) (Option BoundingBox), BoxReturned exZ exHoleFile p := by
  have hc : (([⟨0, 17, 2, "OSMHeader"⟩, ⟨1, 34, 1, "OSMData"⟩, ⟨2, 50, 52, "OSMData"⟩] : List BlobDesc).map fun d => (boxCalls exZ exHoleFile d).getD []) =
      [[], [], [some ⟨0, 0, 0, 0⟩]] := by decide +kernel
  refine ⟨_, .run 4 _ (⟨[], fun _ => none, some ⟨0, 0, 0, 0⟩, [(0, 2, some ⟨0, 0, 0, 0⟩)]⟩) exHole_blobs ?_ ⟨rfl, fun _ => rfl⟩⟩
  rw [hc]
  refine .head (.take _ 0 [] [(1, []), (2, [some ⟨0, 0, 0, 0⟩])] (0, []) rfl rfl) ?_
  refine .head (.finish _ 0 0 (by simp)) ?_
  refine .head (.take _ 0 [] [(2, [some ⟨0, 0, 0, 0⟩])] (1, []) rfl (by simp)) ?_
  refine .head (.finish _ 0 1 (by simp)) ?_
  refine .head (.take _ 0 [] [] (2, [some ⟨0, 0, 0, 0⟩]) rfl (by simp)) ?_
  refine .head (.act _ 0 2 (some ⟨0, 0, 0, 0⟩) [] (by simp)) ?_
  refine .head (.finish _ 0 2 (by simp)) ?_
  have : ∀ p q : Pool 1 (Option BoundingBox) (Option BoundingBox), p = q → Pool.Steps boxAct p q := by rintro p _ rfl; exact .refl
  refine this _ _ ?_
  simp only [Pool.mk.injEq]
  refine ⟨rfl, ?_, rfl, rfl⟩
  funext i
  rw [Subsingleton.elim i 0]
  simp

end OsmIo
