import Verif.Spec.Complete
import Verif.Props.Refusals
/-!
# C84: a data block is read exactly if it is complete
-/
namespace OsmIo
open Wire Spec Spec.Protobuf Spec.Format

/-- A computation that succeeds with a value satisfying `Q` if `C`, and panics if not. -/
def Decides {α : Type} (o : Out α) (C : Prop) (Q : α → Prop) : Prop := (C ∧ ∃ v, o = .ok v ∧ Q v) ∨ (¬ C ∧ o = .panic)

theorem Decides.bind {α β : Type} {x : Out α} {f : α → Out β} {C D E : Prop} {P : α → Prop} {Q : β → Prop} (h : Decides x C P)
    (hf : ∀ v, P v → x = .ok v → C → Decides (f v) D Q) (he : E ↔ C ∧ D) : Decides (x >>= f) E Q := by
  rcases h with ⟨hc, v, rfl, hp⟩ | ⟨hc, rfl⟩
  · rcases hf v hp rfl hc with ⟨hd, w, hw, hq⟩ | ⟨hd, hw⟩
    · exact .inl ⟨he.2 ⟨hc, hd⟩, w, hw, hq⟩
    · exact .inr ⟨fun h => hd (he.1 h).2, hw⟩
  · exact .inr ⟨fun h => hc (he.1 h).1, rfl⟩

theorem Decides.ok {α : Type} {v : α} {C : Prop} {Q : α → Prop} (hc : C) (hq : Q v) : Decides (.ok v) C Q := .inl ⟨hc, v, rfl, hq⟩

theorem Decides.congr {α : Type} {o : Out α} {C D : Prop} {Q : α → Prop} (h : Decides o C Q) (e : D ↔ C) : Decides o D Q := by
  rw [Decides, e]; exact h

theorem Decides.mapM {α β : Type} {f : α → Out β} {C : α → Prop} (as : List α) (h : ∀ a ∈ as, Decides (f a) (C a) fun _ => True) :
    Decides (as.mapM f) (∀ a ∈ as, C a) fun bs => bs.length = as.length := by
  induction as with
  | nil => exact .ok (by simp) rfl
  | cons a as ih =>
    rw [List.mapM_cons]
    refine (h a (by simp)).bind (D := ∀ a ∈ as, C a) (fun v _ _ _ => ?_) (by simp)
    refine (ih fun a ha => h a (by simp [ha])).bind (D := True) (fun vs hvs _ _ => ?_) (by simp)
    exact .ok trivial (by simp [hvs])

theorem Decides.mapM' {α β : Type} {f : α → Out β} {C : α → Prop} {Q : α → β → Prop} (as : List α) (h : ∀ a ∈ as, Decides (f a) (C a) (Q a)) :
    Decides (as.mapM f) (∀ a ∈ as, C a) fun bs => List.Forall₂ Q as bs := by
  induction as with
  | nil => exact .ok (by simp) .nil
  | cons a as ih =>
    rw [List.mapM_cons]
    refine (h a (by simp)).bind (D := ∀ a ∈ as, C a) (fun v hv _ _ => ?_) (by simp)
    refine (ih fun a ha => h a (by simp [ha])).bind (D := True) (fun vs hvs _ _ => ?_) (by simp)
    exact .ok trivial (.cons hv hvs)

theorem Decides.unwrap {α : Type} (o : Option α) : Decides (Out.unwrap o) (o.isSome = true) fun v => o = some v := by
  cases o with
  | none => exact .inr ⟨by simp, rfl⟩
  | some v => exact .ok rfl rfl

section
variable {p : Pb.PrimitiveBlock} {tbl : List String}

theorem strAt_decides (n : Nat) (hl : tbl.length = p.stringtable.s.length) : Decides (strAt tbl n) (InTable p n) fun _ => True := by
  rw [strAt]
  rcases Nat.lt_or_ge n tbl.length with h | h
  · rw [List.getElem?_eq_getElem h]
    exact .ok ⟨by omega, by rw [← hl]; exact_mod_cast h⟩ trivial
  · rw [List.getElem?_eq_none h]
    refine .inr ⟨fun hc => ?_, rfl⟩
    have := hc.2
    rw [← hl] at this
    omega

theorem i32AsUsize_neg (i : Int32) (h : i.toInt < 0) : 2 ^ 63 ≤ i32AsUsize i := by
  unfold i32AsUsize
  have h1 : i.toInt64.toInt = i.toInt := by simp
  have h2 : i.toInt64.toBitVec.toInt < 0 := by
    show i.toInt64.toInt < 0
    omega
  have h3 := BitVec.toInt_neg_iff.1 h2
  show 2 ^ 63 ≤ i.toInt64.toBitVec.toNat
  omega

theorem i32AsUsize_nonneg (i : Int32) (h : 0 ≤ i.toInt) : (i32AsUsize i : ℤ) = i.toInt := by
  obtain ⟨n, hn⟩ := Int.eq_ofNat_of_zero_le h
  have hlt : n < 2 ^ 31 := by have := Int32.toInt_lt i; omega
  have : i = Int32.ofNat n := by
    apply Int32.toInt_inj.1; rw [hn, Int32.toInt_ofNat_of_lt hlt]
  rw [hn, this, ofNat_usize hlt]

theorem strAt32_decides (i : Int32) (hl : tbl.length = p.stringtable.s.length) (hs : p.stringtable.s.length < 2 ^ 63) :
    Decides (strAt tbl (i32AsUsize i)) (InTable p i.toInt) fun _ => True := by
  refine (strAt_decides (p := p) (i32AsUsize i) hl).congr ?_
  rcases lt_or_ge i.toInt 0 with h | h
  · have := i32AsUsize_neg i h
    unfold InTable
    constructor
    · intro h'; omega
    · intro h'; have := h'.2; omega
  · rw [i32AsUsize_nonneg i h]

theorem readTags_decides (hl : tbl.length = p.stringtable.s.length) (keys vals : List UInt32) :
    Decides (readTags tbl keys vals) (CompleteTags p keys vals) fun _ => True := by
  induction keys generalizing vals with
  | nil => exact .ok (by simp [CompleteTags]) trivial
  | cons k ks ih =>
    unfold readTags
    refine (strAt_decides (p := p) k.toNat hl).bind (D := ∃ v vs, vals = v :: vs ∧ InTable p v.toNat ∧ CompleteTags p ks vs) (fun key _ _ _ => ?_) ?_
    · cases vals with
      | nil => exact .inr ⟨by simp, rfl⟩
      | cons v vs =>
        refine (strAt_decides (p := p) v.toNat hl).bind (D := CompleteTags p ks vs) (fun val _ _ _ => ?_) (by simp)
        exact (ih vs).bind (D := True) (fun _ _ _ _ => .ok trivial trivial) (by simp)
    · unfold CompleteTags
      constructor
      · intro h
        obtain ⟨h1, v, h2, h3⟩ := h 0 k rfl
        cases vals with
        | nil => simp at h2
        | cons v' vs =>
          simp at h2; subst h2
          exact ⟨h1, _, _, rfl, h3, fun i k hk => h (i + 1) k (by simpa using hk)⟩
      · rintro ⟨h1, v, vs, rfl, h2, h3⟩ i k' hk
        cases i with
        | zero => simp at hk; subst hk; exact ⟨h1, v, rfl, h2⟩
        | succ i => exact h3 i k' (by simpa using hk)

theorem readInfo_decides (hl : tbl.length = p.stringtable.s.length) (dg : Int32) (info : Option Pb.Info) :
    Decides (readInfo tbl dg info) (CompleteInfo p info) fun _ => True := by
  cases info with
  | none => exact .ok (by simp [CompleteInfo]) trivial
  | some info =>
    unfold readInfo
    exact (strAt_decides (p := p) _ hl).bind (D := True) (fun _ _ _ _ => .ok trivial trivial) (by simp [CompleteInfo])

theorem mkMember_decides (t : Int32) (d : MemberData) : Decides (mkMember t d) (t = 0 ∨ t = 1 ∨ t = 2) fun _ => True := by
  unfold mkMember
  split
  · exact .ok (by simp [*]) trivial
  split
  · exact .ok (by simp [*]) trivial
  split
  · exact .ok (by simp [*]) trivial
  · exact .inr ⟨by simp [*], rfl⟩

theorem completeMembers_cons (d : Int64) (ds : List Int64) (roles types : List Int32) :
    CompleteMembers p (d :: ds) roles types ↔ ∃ r rs t ts, roles = r :: rs ∧ types = t :: ts ∧ InTable p r.toInt ∧ (t = 0 ∨ t = 1 ∨ t = 2) ∧
      CompleteMembers p ds rs ts := by
  unfold CompleteMembers
  constructor
  · intro h
    obtain ⟨⟨r, h1, h2⟩, h3⟩ := h 0 (by simp)
    cases roles with
    | nil => simp at h1
    | cons r' rs =>
      cases types with
      | nil => simp at h3
      | cons t ts =>
        simp at h1; subst h1
        exact ⟨_, _, _, _, rfl, rfl, h2, by simpa using h3, fun i hi => by simpa using h (i + 1) (by simpa using hi)⟩
  · rintro ⟨r, rs, t, ts, rfl, rfl, h2, h3, h4⟩ i hi
    cases i with
    | zero => exact ⟨⟨r, rfl, h2⟩, by simpa using h3⟩
    | succ i => simpa using h4 i (by simpa using hi)

theorem readMembers_decides (hl : tbl.length = p.stringtable.s.length) (hs : p.stringtable.s.length < 2 ^ 63) (last : Int64) (ids : List Int64)
    (roles types : List Int32) : Decides (readMembers tbl last ids roles types) (CompleteMembers p ids roles types) fun _ => True := by
  induction ids generalizing last roles types with
  | nil => exact .ok (by simp [CompleteMembers]) trivial
  | cons d ds ih =>
    unfold readMembers
    have e := completeMembers_cons (p := p) d ds roles types
    cases roles with
    | nil => exact .inr ⟨by rw [e]; simp, rfl⟩
    | cons r rs =>
      refine (strAt32_decides (p := p) r hl hs).bind (D := ∃ t ts, types = t :: ts ∧ (t = 0 ∨ t = 1 ∨ t = 2) ∧ CompleteMembers p ds rs ts)
        (fun role _ _ _ => ?_) (by
          rw [e]
          constructor
          · rintro ⟨r, rs, t, ts, h1, rfl, h2, h3, h4⟩
            injection h1 with h1 h1'; subst h1; subst h1'
            exact ⟨h2, t, ts, rfl, h3, h4⟩
          · rintro ⟨h2, t, ts, rfl, h3, h4⟩
            exact ⟨_, _, t, ts, rfl, rfl, h2, h3, h4⟩)
      cases types with
      | nil => exact .inr ⟨by simp, rfl⟩
      | cons t ts =>
        refine (mkMember_decides t _).bind (D := CompleteMembers p ds rs ts) (fun m _ _ _ => ?_) (by simp)
        exact (ih _ rs ts).bind (D := True) (fun _ _ _ _ => .ok trivial trivial) (by simp)

/-! ## The tags of dense nodes -/

theorem keysVals_zero (codes : List Int32) : CompleteKeysVals p 0 codes := .inl ⟨[], codes, rfl, by simp, rfl⟩

theorem keysVals_nil (n : Nat) : CompleteKeysVals p n [] := by
  cases n with
  | zero => exact keysVals_zero _
  | succ n => exact .inr ⟨[], [], by simp, by simp, by simp [CompletePairs], rfl⟩

theorem keysVals_succ (n : Nat) (codes : List Int32) : CompleteKeysVals p (n + 1) codes ↔
    ∃ pairs, CompletePairs p pairs ∧ ((∃ r, codes = pairCodes pairs ++ 0 :: r ∧ CompleteKeysVals p n r) ∨ codes = pairCodes pairs) := by
  constructor
  · rintro (⟨parts, rest, h1, h2, rfl⟩ | ⟨parts, last, h1, h2, h3, rfl⟩)
    · cases parts with
      | nil => simp at h1
      | cons q qs =>
        refine ⟨q, h2 q (by simp), .inl ⟨qs.flatMap (fun q => pairCodes q ++ [0]) ++ rest, by simp, .inl ⟨qs, rest, by simpa using h1, fun q hq => h2 q (by simp [hq]), rfl⟩⟩⟩
    · cases parts with
      | nil => exact ⟨last, h3, .inr (by simp)⟩
      | cons q qs =>
        exact ⟨q, h2 q (by simp), .inl ⟨qs.flatMap (fun q => pairCodes q ++ [0]) ++ pairCodes last, by simp, .inr ⟨qs, last, by simpa using h1, fun q hq => h2 q (by simp [hq]), h3, rfl⟩⟩⟩
  · rintro ⟨q, hq, ⟨r, rfl, ⟨parts, rest, h1, h2, rfl⟩ | ⟨parts, last, h1, h2, h3, rfl⟩⟩ | rfl⟩
    · exact .inl ⟨q :: parts, rest, by simp [h1], by simpa using ⟨hq, h2⟩, by simp⟩
    · exact .inr ⟨q :: parts, last, by simpa using h1, by simpa using ⟨hq, h2⟩, h3, by simp⟩
    · exact .inr ⟨[], q, by simp, by simp, hq, by simp⟩

theorem keysVals_stop (n : Nat) (rest : List Int32) : CompleteKeysVals p (n + 1) (0 :: rest) ↔ CompleteKeysVals p n rest := by
  rw [keysVals_succ]
  constructor
  · rintro ⟨q, hq, h⟩
    cases q with
    | nil => simpa [pairCodes] using h
    | cons kv q =>
      have := (hq kv (by simp)).1
      rcases h with ⟨r, h, _⟩ | h <;> simp [pairCodes] at h <;> exact absurd h.1.symm this
  · intro h
    exact ⟨[], by simp [CompletePairs], .inl ⟨rest, rfl, h⟩⟩

theorem keysVals_odd (n : Nat) {k : Int32} (hk : k ≠ 0) : ¬ CompleteKeysVals p (n + 1) [k] := by
  rw [keysVals_succ]
  rintro ⟨q, hq, h⟩
  cases q with
  | nil => rcases h with ⟨r, h, _⟩ | h <;> simp [pairCodes] at h; exact hk h.1
  | cons kv q => rcases h with ⟨r, h, _⟩ | h <;> simp [pairCodes] at h

theorem keysVals_pair (n : Nat) {k v : Int32} (hk : k ≠ 0) (rest : List Int32) :
    CompleteKeysVals p (n + 1) (k :: v :: rest) ↔ InTable p k.toInt ∧ InTable p v.toInt ∧ CompleteKeysVals p (n + 1) rest := by
  rw [keysVals_succ, keysVals_succ]
  constructor
  · rintro ⟨q, hq, h⟩
    cases q with
    | nil =>
      rcases h with ⟨r, h, _⟩ | h
      · simp [pairCodes] at h; exact absurd h.1 hk
      · simp [pairCodes] at h
    | cons kv q =>
      have h0 := hq kv (by simp)
      have hq' : CompletePairs p q := fun x hx => hq x (by simp [hx])
      rcases h with ⟨r, h, hr⟩ | h
      · simp only [pairCodes, List.flatMap_cons, List.cons_append, List.nil_append, List.cons.injEq, List.append_assoc] at h
        obtain ⟨rfl, rfl, h⟩ := h
        exact ⟨h0.2.1, h0.2.2, q, hq', .inl ⟨r, h, hr⟩⟩
      · simp only [pairCodes, List.flatMap_cons, List.cons_append, List.nil_append, List.cons.injEq] at h
        obtain ⟨rfl, rfl, h⟩ := h
        exact ⟨h0.2.1, h0.2.2, q, hq', .inr h⟩
  · rintro ⟨h1, h2, q, hq, h⟩
    refine ⟨(k, v) :: q, ?_, ?_⟩
    · intro x hx
      simp at hx
      rcases hx with rfl | hx
      · exact ⟨hk, h1, h2⟩
      · exact hq x hx
    · rcases h with ⟨r, rfl, hr⟩ | rfl
      · exact .inl ⟨r, by simp [pairCodes], hr⟩
      · exact .inr (by simp [pairCodes])

theorem readKeyVals_decides (hl : tbl.length = p.stringtable.s.length) (hs : p.stringtable.s.length < 2 ^ 63) (codes : List Int32) :
    (∃ tags r, readKeyVals tbl codes = .ok (tags, r) ∧ ∀ n, CompleteKeysVals p (n + 1) codes ↔ CompleteKeysVals p n r) ∨
    (readKeyVals tbl codes = .panic ∧ ∀ n, ¬ CompleteKeysVals p (n + 1) codes) := by
  fun_induction readKeyVals tbl codes with
  | case1 => exact .inl ⟨[], [], rfl, fun n => ⟨fun _ => keysVals_nil n, fun _ => keysVals_nil _⟩⟩
  | case2 rest => exact .inl ⟨[], rest, rfl, fun n => keysVals_stop n rest⟩
  | case3 k hk => exact .inr ⟨rfl, fun n => keysVals_odd n hk⟩
  | case4 k hk v rest ih =>
    rcases strAt32_decides (p := p) k hl hs with ⟨hc1, key, e1, _⟩ | ⟨hc1, e1⟩
    · rcases strAt32_decides (p := p) v hl hs with ⟨hc2, val, e2, _⟩ | ⟨hc2, e2⟩
      · rw [e1, e2]
        rcases ih with ⟨tags, r, e3, h3⟩ | ⟨e3, h3⟩
        · rw [e3]
          exact .inl ⟨_, r, rfl, fun n => by rw [keysVals_pair n hk, ← h3 n]; simp [hc1, hc2]⟩
        · rw [e3]
          exact .inr ⟨rfl, fun n h => h3 n ((keysVals_pair n hk _).1 h).2.2⟩
      · rw [e1, e2]
        exact .inr ⟨rfl, fun n h => hc2 ((keysVals_pair n hk _).1 h).2.1⟩
    · rw [e1]
      exact .inr ⟨rfl, fun n h => hc1 ((keysVals_pair n hk _).1 h).1⟩

/-! ## Dense nodes -/

/-- What dense node number `i` needs, its tags apart. -/
def CompleteAt (p : Pb.PrimitiveBlock) (d : Pb.DenseNodes) (i : Nat) : Prop :=
  i < d.lat.length ∧ i < d.lon.length ∧ ∀ inf, d.denseinfo = some inf →
    i < inf.version.length ∧ i < inf.timestamp.length ∧ i < inf.changeset.length ∧ i < inf.uid.length ∧ i < inf.user_sid.length ∧
    InTable p ((sum32 inf.user_sid i).bmod (2 ^ 32))

theorem unwrap_decides {α : Type} (l : List α) (i : Nat) : Decides (Out.unwrap l[i]?) (i < l.length) fun v => l[i]? = some v :=
  (Decides.unwrap l[i]?).congr (by simp)

theorem readDenseInfo_decides (hl : tbl.length = p.stringtable.s.length) (hs : p.stringtable.s.length < 2 ^ 63) (dg : Int32)
    (d : Pb.DenseNodes) (i : Nat) (s : DenseState)
    (hu : ∀ inf, d.denseinfo = some inf → s.last_user_sid = Int32.ofInt (before32 inf.user_sid i)) :
    Decides (readDenseInfo tbl dg d.denseinfo i s) (∀ inf, d.denseinfo = some inf →
      i < inf.version.length ∧ i < inf.timestamp.length ∧ i < inf.changeset.length ∧ i < inf.uid.length ∧ i < inf.user_sid.length ∧
      InTable p ((sum32 inf.user_sid i).bmod (2 ^ 32)))
      fun r => r.1.keyVals = s.keyVals ∧ ∀ inf, d.denseinfo = some inf → r.1.last_user_sid = Int32.ofInt (before32 inf.user_sid (i + 1)) := by
  cases hd : d.denseinfo with
  | none => exact .ok (by simp) (by simp)
  | some inf =>
    have hu := hu inf hd
    unfold readDenseInfo
    simp only [Option.some.injEq, forall_eq']
    refine (unwrap_decides inf.timestamp i).bind (D := i < inf.version.length ∧ i < inf.changeset.length ∧ i < inf.uid.length ∧
      i < inf.user_sid.length ∧ InTable p ((sum32 inf.user_sid i).bmod (2 ^ 32))) (fun dts _ _ _ => ?_) (by tauto)
    refine (unwrap_decides inf.changeset i).bind (D := i < inf.version.length ∧ i < inf.uid.length ∧
      i < inf.user_sid.length ∧ InTable p ((sum32 inf.user_sid i).bmod (2 ^ 32))) (fun dcs _ _ _ => ?_) (by tauto)
    refine (unwrap_decides inf.uid i).bind (D := i < inf.version.length ∧ i < inf.user_sid.length ∧
      InTable p ((sum32 inf.user_sid i).bmod (2 ^ 32))) (fun duid _ _ _ => ?_) (by tauto)
    refine (unwrap_decides inf.user_sid i).bind (D := i < inf.version.length ∧ InTable p ((sum32 inf.user_sid i).bmod (2 ^ 32))) (fun dsid hsid _ _ => ?_) (by tauto)
    refine (unwrap_decides inf.version i).bind (D := InTable p ((sum32 inf.user_sid i).bmod (2 ^ 32))) (fun version _ _ _ => ?_) (by tauto)
    have e : s.last_user_sid + dsid = Int32.ofInt (sum32 inf.user_sid i) := by
      rw [hu, i32_ofInt_add, before32_succ hsid]
    have e2 : (Int32.ofInt (sum32 inf.user_sid i)).toInt = (sum32 inf.user_sid i).bmod (2 ^ 32) := by rw [Int32.toInt_ofInt]; rfl
    rw [e, ← e2]
    refine (strAt32_decides (p := p) _ hl hs).bind (D := True) (fun user _ _ _ => ?_) (by simp)
    exact .ok trivial ⟨rfl, rfl⟩

theorem readDenseGo_decides (hl : tbl.length = p.stringtable.s.length) (hs : p.stringtable.s.length < 2 ^ 63) (g : Int64) (dg : Int32) (la lo : Int64)
    (d : Pb.DenseNodes) (i : Nat) (ids : List Int64) (s : DenseState)
    (hu : ∀ inf, d.denseinfo = some inf → s.last_user_sid = Int32.ofInt (before32 inf.user_sid i)) :
    Decides (readDenseGo tbl g dg la lo d i ids s) ((∀ j, i ≤ j → j < i + ids.length → CompleteAt p d j) ∧ CompleteKeysVals p ids.length s.keyVals)
      fun es => es.length = ids.length := by
  induction ids generalizing i s with
  | nil => exact .ok ⟨fun j h1 h2 => by simp at h2; omega, keysVals_zero _⟩ rfl
  | cons id ids ih =>
    unfold readDenseGo
    have e : (∀ j, i ≤ j → j < i + (id :: ids).length → CompleteAt p d j) ↔
        CompleteAt p d i ∧ ∀ j, i + 1 ≤ j → j < i + 1 + ids.length → CompleteAt p d j := by
      constructor
      · exact fun h => ⟨h i le_rfl (by simp), fun j h1 h2 => h j (by omega) (by simp; omega)⟩
      · rintro ⟨h1, h2⟩ j h3 h4
        rcases Nat.eq_or_lt_of_le h3 with rfl | h5
        · exact h1
        · exact h2 j h5 (by simp at h4; omega)
    rw [e]
    generalize hrest : (∀ j, i + 1 ≤ j → j < i + 1 + ids.length → CompleteAt p d j) = rest at *
    have eI : CompleteAt p d i ↔ i < d.lat.length ∧ i < d.lon.length ∧ ∀ inf, d.denseinfo = some inf →
      i < inf.version.length ∧ i < inf.timestamp.length ∧ i < inf.changeset.length ∧ i < inf.uid.length ∧ i < inf.user_sid.length ∧
      InTable p ((sum32 inf.user_sid i).bmod (2 ^ 32)) := Iff.rfl
    rw [eI]
    refine (unwrap_decides d.lat i).bind (D := i < d.lon.length ∧ (∀ inf, d.denseinfo = some inf →
      i < inf.version.length ∧ i < inf.timestamp.length ∧ i < inf.changeset.length ∧ i < inf.uid.length ∧ i < inf.user_sid.length ∧
      InTable p ((sum32 inf.user_sid i).bmod (2 ^ 32))) ∧ rest ∧ CompleteKeysVals p (ids.length + 1) s.keyVals) (fun dlat _ _ _ => ?_)
      (by rw [List.length_cons]; tauto)
    refine (unwrap_decides d.lon i).bind (D := (∀ inf, d.denseinfo = some inf →
      i < inf.version.length ∧ i < inf.timestamp.length ∧ i < inf.changeset.length ∧ i < inf.uid.length ∧ i < inf.user_sid.length ∧
      InTable p ((sum32 inf.user_sid i).bmod (2 ^ 32))) ∧ rest ∧ CompleteKeysVals p (ids.length + 1) s.keyVals) (fun dlon _ _ _ => ?_) Iff.rfl
    refine (readDenseInfo_decides hl hs dg d i _ (by simpa using hu)).bind (D := rest ∧ CompleteKeysVals p (ids.length + 1) s.keyVals) (fun r hr _ _ => ?_) Iff.rfl
    obtain ⟨s', version, user⟩ := r
    obtain ⟨hk, hu'⟩ := hr
    dsimp only at hk hu' ⊢
    rw [hk]
    rcases readKeyVals_decides hl hs s.keyVals with ⟨tags, kv, e1, h1⟩ | ⟨e1, h1⟩
    · rw [e1, Out.ok_bind, h1]
      refine (ih (i + 1) _ (by simpa using hu')).bind (D := True) (fun es hes _ _ => ?_) (by subst hrest; simp)
      exact .ok trivial (by simp [hes])
    · rw [e1]
      exact .inr ⟨fun h => h1 _ h.2, rfl⟩

theorem readDense_decides (hl : tbl.length = p.stringtable.s.length) (hs : p.stringtable.s.length < 2 ^ 63) (g : Int64) (dg : Int32) (la lo : Int64)
    (dense : Option Pb.DenseNodes) :
    Decides (readDense tbl g dg la lo dense) (∀ d, dense = some d → CompleteDense p d)
      fun es => es.length = denseCount dense := by
  cases dense with
  | none => exact .ok (by simp) rfl
  | some d =>
    refine (readDenseGo_decides hl hs g dg la lo d 0 d.id (DenseState.init d) (by simp [DenseState.init, before32])).congr ?_
    simp only [Option.some.injEq, forall_eq']
    constructor
    · exact fun h => ⟨fun j _ hj => h.1 j (by omega), h.2⟩
    · exact fun h => ⟨fun j hj => h.1 j (by omega) (by omega), h.2⟩

/-! ## Blocks -/

theorem readGroup_decides (hl : tbl.length = p.stringtable.s.length) (hs : p.stringtable.s.length < 2 ^ 63) (g : Int64) (dg : Int32) (la lo : Int64)
    (gr : Pb.PrimitiveGroup) :
    Decides (readGroup tbl g dg la lo gr) (CompleteGroup p gr)
      fun es => es.length = denseCount gr.dense + gr.nodes.length + gr.ways.length + gr.relations.length := by
  unfold readGroup CompleteGroup
  refine (readDense_decides hl hs g dg la lo gr.dense).bind (fun a ha _ _ => ?_) Iff.rfl
  refine (Decides.mapM (C := fun n => CompleteInfo p n.info ∧ CompleteTags p n.keys n.vals) gr.nodes (fun n _ => ?_)).bind (fun b hb _ _ => ?_) Iff.rfl
  · unfold readNode
    refine (readInfo_decides hl _ _).bind (D := CompleteTags p n.keys n.vals) (fun _ _ _ _ => ?_) Iff.rfl
    exact (readTags_decides hl _ _).bind (D := True) (fun _ _ _ _ => .ok trivial trivial) (by simp)
  refine (Decides.mapM (C := fun n => CompleteInfo p n.info ∧ CompleteTags p n.keys n.vals) gr.ways (fun n _ => ?_)).bind (fun c hc _ _ => ?_) Iff.rfl
  · unfold readWay
    refine (readInfo_decides hl _ _).bind (D := CompleteTags p n.keys n.vals) (fun _ _ _ _ => ?_) Iff.rfl
    exact (readTags_decides hl _ _).bind (D := True) (fun _ _ _ _ => .ok trivial trivial) (by simp)
  refine (Decides.mapM (C := fun r => CompleteInfo p r.info ∧ CompleteMembers p r.memids r.roles_sid r.types ∧ CompleteTags p r.keys r.vals) gr.relations
    (fun n _ => ?_)).bind (fun d hd _ _ => ?_) Iff.rfl
  · unfold readRelation
    refine (readInfo_decides hl _ _).bind (D := CompleteMembers p n.memids n.roles_sid n.types ∧ CompleteTags p n.keys n.vals) (fun _ _ _ _ => ?_) Iff.rfl
    refine (readMembers_decides hl hs _ _ _ _).bind (D := CompleteTags p n.keys n.vals) (fun _ _ _ _ => ?_) Iff.rfl
    exact (readTags_decides hl _ _).bind (D := True) (fun _ _ _ _ => .ok trivial trivial) (by simp)
  cases hcs : gr.changesets with
  | nil => exact .ok rfl (by simp only [List.length_append, ha, hb, hc, hd])
  | cons x xs => exact .inr ⟨by simp, rfl⟩

end

theorem strings_decides (p : Pb.PrimitiveBlock) : Decides (p.stringtable.s.mapM fun b => Out.unwrap (strOf b))
    (∀ b ∈ p.stringtable.s, ∃ s : String, b = s.toByteArray.data.toList) fun t => t.length = p.stringtable.s.length := by
  refine Decides.mapM (C := fun b => ∃ s : String, b = s.toByteArray.data.toList) _ (fun b _ => ?_)
  cases h : strOf b with
  | none =>
    refine .inr ⟨?_, rfl⟩
    rintro ⟨s, rfl⟩
    have := strOf_strBytes s
    rw [strBytes] at this
    rw [this] at h; simp at h
  | some s => exact .ok ⟨s, by have := strBytes_of_strOf h; exact this.symm⟩ trivial

theorem fromPrimitiveBlock_decides (p : Pb.PrimitiveBlock) (hs : p.stringtable.s.length < 2 ^ 63) :
    Decides (fromPrimitiveBlock p) (Complete p) fun es => es.length = elementCount p := by
  unfold fromPrimitiveBlock Complete
  refine (strings_decides p).bind (fun tbl hl _ _ => ?_) Iff.rfl
  dsimp only
  refine (Decides.mapM' p.primitivegroup (fun g _ => readGroup_decides hl hs _ _ _ _ g)).bind (D := True) (fun gs hgs e1 e2 => ?_) (by simp)
  clear e1 e2
  refine .ok trivial ?_
  unfold elementCount
  generalize p.primitivegroup = l at hgs
  induction hgs with
  | nil => rfl
  | cons h _ ih => rw [List.flatten_cons, List.length_append, List.map_cons, List.sum_cons, ih, h]

theorem new_decides {p : Pb.PrimitiveBlock} {data : Bytes} (h : IsPrimitiveBlock p data) (hs : p.stringtable.s.length < 2 ^ 63) :
    (Complete p ∧ ∃ es, FileBlock.new "OSMData" data = .ok (.data es) ∧ es.length = elementCount p) ∨
    (¬ Complete p ∧ FileBlock.new "OSMData" data = .panic) := by
  have e : FileBlock.new "OSMData" data = (fromPrimitiveBlock p >>= fun es => .ok (.data es)) := by
    simp [FileBlock.new, parseData, PrimitiveBlock.decode_of h]
  rw [e]
  rcases fromPrimitiveBlock_decides p hs with ⟨hc, es, h1, h2⟩ | ⟨hc, h1⟩
  · exact .inl ⟨hc, es, by rw [h1]; rfl, h2⟩
  · exact .inr ⟨hc, by rw [h1]; rfl⟩

/-- C84. The blob `b` of a block of type `OSMData`, holding the message `p`: if `p` is complete the block is read,
and has as many elements as the message lists; if not, the call panics. It never returns an error. -/
theorem C84_complete (z : Zlib) (inflates : Format.Inflates) (hz : ∀ c d, inflates c d → z.stream c = d)
    (p : Pb.PrimitiveBlock) (data b : Bytes) (h : IsPrimitiveBlock p data) (hb : Format.IsBlob inflates data b)
    (hs : p.stringtable.s.length < 2 ^ 63) :
    (Complete p ∧ ∃ es, FileBlock.deserialize z "OSMData" b = .ok (.data es) ∧ es.length = elementCount p) ∨
    (¬ Complete p ∧ FileBlock.deserialize z "OSMData" b = .panic) := by
  rw [readBlob_of hz hb]
  exact new_decides h hs

/-- Two frames with the same blob. -/
theorem isFrame_of {inflates : Format.Inflates} {t : String} {data b : Bytes} (h : Format.IsFrame inflates t data b) :
    ∃ blob, Format.IsFrameOf t blob b ∧ Format.IsBlob inflates data blob := by
  obtain ⟨b3, b2, b1, b0, header, blob, hd, h1, h2, h3, h4, h5, h6, h7⟩ := h
  exact ⟨blob, ⟨b3, b2, b1, b0, header, hd, h1, h2, h3, h4, h5, h6⟩, h7⟩

theorem takeBlocks_messages {z : Zlib} {inflates : Format.Inflates} (hz : Decodes z inflates) {ps : List Pb.PrimitiveBlock} {frames : List Bytes}
    (h : List.Forall₂ (IsMessageFrame inflates) ps frames) {file : Bytes} (pre : Bytes) (hf : file = pre ++ frames.flatten)
    (it : BlobIter) (hp : it.pos + it.jump = pre.length) : ∃ blocks : List (List Element),
      ((∀ p ∈ ps, Complete p) ∧ List.Forall₂ (fun p es => es.length = elementCount p) ps blocks ∧
        takeBlocks z file (ps.length + 1) it = (blocks.map .data, .done)) ∨
      (∃ good bad rest, ps = good ++ bad :: rest ∧ (∀ p ∈ good, Complete p) ∧ ¬ Complete bad ∧
        List.Forall₂ (fun p es => es.length = elementCount p) good blocks ∧ takeBlocks z file (ps.length + 1) it = (blocks.map .data, .panic)) := by
  induction h generalizing pre it with
  | nil =>
    have := next_end (file := file) (it := it) (by rw [hp, hf]; simp)
    exact ⟨[], .inl ⟨by simp, .nil, by simp [takeBlocks, nextBlock, this]⟩⟩
  | @cons p fr ps frames hp1 _ ih =>
    obtain ⟨data, h1, h2, h3⟩ := hp1
    rcases new_decides h2 h3 with ⟨hc, es, he, hlen⟩ | ⟨hc, he⟩
    · obtain ⟨it', hn, hp'⟩ := nextBlock_published hz h1 he (file := file) (pre := pre) (post := frames.flatten) (by rw [hf]; simp) hp
      obtain ⟨blocks, ⟨k1, k2, k3⟩ | ⟨good, bad, rest, rfl, k1, k2, k3, k4⟩⟩ := ih (pre ++ fr) (by rw [hf]; simp) it' hp'
      · refine ⟨es :: blocks, .inl ⟨by simpa using ⟨hc, k1⟩, .cons hlen k2, ?_⟩⟩
        rw [List.length_cons, takeBlocks, hn]
        simp only [k3]; rfl
      · refine ⟨es :: blocks, .inr ⟨p :: good, bad, rest, rfl, by simpa using ⟨hc, k1⟩, k2, .cons hlen k3, ?_⟩⟩
        rw [List.length_cons, takeBlocks, hn]
        simp only [k4]; rfl
    · obtain ⟨blob, hfr, hbl⟩ := isFrame_of h1
      have := (frame_refused (z := z) hfr (by rw [readBlob_of hz hbl, he]; simp) (file := file) (post := frames.flatten) (by simpa using hf) hp).1
      exact ⟨[], .inr ⟨[], p, ps, rfl, by simp, hc, .nil, by simp [takeBlocks, this]⟩⟩

/-- C84. A file of a header and any blocks: iteration over its elements delivers the blocks before the first that is not complete, with
all their elements, and panics there; if all are complete it delivers all elements and ends. -/
theorem C84_iteration (z : Zlib) (inflates : Format.Inflates) (hz : ∀ c d, inflates c d → z.stream c = d) (info : FileInfo) (head : Bytes)
    (hh : Format.IsHeaderFrame inflates info head) (ps : List Pb.PrimitiveBlock) (frames : List Bytes)
    (h : List.Forall₂ (IsMessageFrame inflates) ps frames) : ∃ blocks : List (List Element),
      ((∀ p ∈ ps, Complete p) ∧ List.Forall₂ (fun p es => es.length = elementCount p) ps blocks ∧
        ∀ es r, ReadsElements z (head ++ frames.flatten) es r ↔ es = blocks.flatten ∧ r = .done) ∨
      (∃ good bad rest, ps = good ++ bad :: rest ∧ (∀ p ∈ good, Complete p) ∧ ¬ Complete bad ∧
        List.Forall₂ (fun p es => es.length = elementCount p) good blocks ∧
        ∀ es r, ReadsElements z (head ++ frames.flatten) es r ↔ es = blocks.flatten ∧ r = .panic) := by
  obtain ⟨it, hn, hp⟩ := nextBlock_header hz hh frames.flatten
  have key : ∀ {blocks : List (List Element)} {e : End} (he : e ≠ .more),
      takeBlocks z (head ++ frames.flatten) (ps.length + 1) it = (blocks.map .data, e) →
      ∀ es r, ReadsElements z (head ++ frames.flatten) es r ↔ es = blocks.flatten ∧ r = e := by
    intro blocks e he ht es r
    have : takeBlocks z (head ++ frames.flatten) (ps.length + 1 + 1) {} = (.header info :: blocks.map .data, e) := by
      generalize ps.length + 1 = n at ht ⊢
      simp only [takeBlocks, hn, ht]
    rw [reads_iff this he]
    have hs : ∀ bs : List (List Element), stream (bs.map FileBlock.data) e = (bs.flatten, e) := by
      intro bs
      induction bs with
      | nil => rfl
      | cons b bs ih => simp [stream, ih]
    simp [streamAll, hs]
  obtain ⟨blocks, ⟨k1, k2, k3⟩ | ⟨good, bad, rest, k0, k1, k2, k3, k4⟩⟩ := takeBlocks_messages hz h head rfl it hp
  · exact ⟨blocks, .inl ⟨k1, k2, key (by simp) k3⟩⟩
  · exact ⟨blocks, .inr ⟨good, bad, rest, k0, k1, k2, k3, key (by simp) k4⟩⟩

/-- C84. In particular the blocks the published format describes are complete. -/
theorem C84_published (p : Pb.PrimitiveBlock) (es : List Element) (h : Format.Block p es) : Complete p ∧ es.length = elementCount p := by
  have := C55_block_read_as_published p es h
  rcases fromPrimitiveBlock_decides p (lt_trans h.strings_count (by norm_num)) with ⟨hc, es', h1, h2⟩ | ⟨hc, h1⟩
  · rw [this] at h1; injection h1 with h1; subst h1; exact ⟨hc, h2⟩
  · rw [this] at h1; simp at h1

/-- C31. A block compressed with zlib whose size is not given, or negative, is a panic. -/
theorem C31_unsized (z : Zlib) (t : String) (b : Bytes) (h : IsUnsizedBlob b) : FileBlock.deserialize z t b = .panic := by
  obtain ⟨fs, c, size, h1, h2, h3, h4, h5⟩ := h
  simp only [FileBlock.deserialize, Blob.decode_zlib_sized h1 h2 h4 h5, readBlobData]
  cases size with
  | none => rfl
  | some n =>
    have : n < 0 := by rw [Int32.lt_iff_toInt_lt]; simpa using h3 n rfl
    simp [Out.unwrap, zlibDecode, this]

/-! ## Examples -/

/-- The block of the example of `C58` is complete. -/
example : Complete exBlockMsg ∧ elementCount exBlockMsg = 1 :=
  ⟨(C84_published _ _ exBlockMsg_says).1, rfl⟩

/-- A block the format does not allow: the way has a key, and two values for it. It is complete, hence read. -/
example : Complete { stringtable := ⟨[[], [97]]⟩, primitivegroup := [{ ways := [{ id := 1, keys := [1], vals := [1, 9] }] }] } := by
  refine ⟨?_, ?_⟩
  · intro b hb
    simp only [List.mem_cons, List.not_mem_nil, or_false] at hb
    rcases hb with rfl | rfl
    · exact ⟨"", rfl⟩
    · exact ⟨"a", rfl⟩
  · intro g hg
    simp only [List.mem_cons, List.not_mem_nil, or_false] at hg
    subst hg
    refine ⟨by simp, by simp, ?_, by simp, rfl⟩
    intro w hw
    simp only [List.mem_cons, List.not_mem_nil, or_false] at hw
    subst hw
    refine ⟨by simp [CompleteInfo], ?_⟩
    intro i k hk
    cases i with
    | zero => simp at hk; subst hk; exact ⟨by simp [InTable], 1, rfl, by simp [InTable]⟩
    | succ i => simp at hk

/-- Two dense nodes whose tags end early, and one with a key without value. -/
example (p : Pb.PrimitiveBlock) (hp : p.stringtable = ⟨[[], [97]]⟩) : CompleteKeysVals p 2 [1, 1] ∧ ¬ CompleteKeysVals p 2 [1, 1, 0, 1] := by
  have h1 : InTable p 1 := by simp [InTable, hp]
  constructor
  · exact .inr ⟨[], [(1, 1)], by decide, by simp, by simpa [CompletePairs] using h1, rfl⟩
  · rw [keysVals_pair 1 (by decide), keysVals_stop]
    exact fun h => keysVals_odd 0 (by decide) h.2.2

/-- A changeset, in a block of ten bytes: a panic. -/
example (z : Zlib) (b : Bytes) (hb : Format.IsBlob (fun c d => z.stream c = d) [18, 4, 42, 2, 8, 5, 10, 2, 10, 0] b) :
    FileBlock.deserialize z "OSMData" b = .panic := by
  rcases C84_complete z _ (fun _ _ h => h) _ _ b exChangesets_is hb (by decide) with ⟨⟨_, h⟩, _⟩ | h
  · exact absurd (h _ (List.mem_singleton.2 rfl)).2.2.2.2 (by decide)
  · exact h.2

/-- A way with a key that is not in the string table: a panic. -/
example : ¬ Complete { stringtable := ⟨[[]]⟩, primitivegroup := [{ ways := [{ id := 1, keys := [7], vals := [0] }] }] } := by
  rintro ⟨_, h⟩
  have := ((h _ (List.mem_singleton.2 rfl)).2.2.1 _ (List.mem_singleton.2 rfl)).2 0 7 rfl
  exact absurd this.1.2 (by decide)

/-- A compressed blob without a size, and one with size -1. -/
example : IsUnsizedBlob [26, 1, 7] ∧ IsUnsizedBlob [16, 255, 255, 255, 255, 255, 255, 255, 255, 255, 1, 26, 1, 7] := by
  refine ⟨⟨_, [7], none, .mk1 (num := 3) (item := .bytes [7]) (b := [1, 7]) 26 rfl (by decide) (by decide) (.bytes1 1 rfl (by decide)) .nil, ⟨[], rfl, rfl⟩, by simp, ⟨[_], rfl, rfl⟩, by decide⟩, ?_⟩
  refine ⟨_, [7], some (-1), .mk1 (num := 2) (wt := 0) (item := .int (-1)) (b := [255, 255, 255, 255, 255, 255, 255, 255, 255, 1]) 16 rfl (by decide) (by decide) ?_
    (.mk1 (num := 3) (item := .bytes [7]) (b := [1, 7]) 26 rfl (by decide) (by decide) (.bytes1 1 rfl (by decide)) .nil), ⟨[-1], rfl, rfl⟩, by decide, ⟨[_], rfl, rfl⟩, by decide⟩
  refine .int ⟨by decide, by decide, by simp, by decide, ?_⟩
  intro i b h
  rcases i with _ | _ | _ | _ | _ | _ | _ | _ | _ | _ | i <;> simp at h <;> subst h <;> decide

end OsmIo
