import Verif.Lemmas.Lenient
/-! # Merging fields and the field rules -/
namespace OsmIo
open Wire
open Spec.Protobuf (value IsVarint Group utf8 zigzag)
open Spec.Lenient (Content Entry Encodes FieldList numbered int32 int64 uint32 bool sint32 sint64 unzigzag)

/-! ## Numbers -/

theorem toInt64_lenient (n : Nat) : toInt64 n = int64 n := by
  apply Int64.toBitVec_inj.1
  apply BitVec.eq_of_toNat_eq
  simp [toInt64, int64]

theorem toInt32_lenient (n : Nat) : toInt32 n = int32 n := by
  apply Int32.toBitVec_inj.1
  apply BitVec.eq_of_toNat_eq
  simp [toInt32, int32]

theorem toUInt32_lenient (n : Nat) : toUInt32 n = uint32 n := rfl

theorem toBool_lenient (n : Nat) : Wire.toBool n = Spec.Lenient.bool n := by
  by_cases h : n = 0 <;> simp [Wire.toBool, Spec.Lenient.bool, h]

theorem zigzag_unzigzag (n : Nat) : zigzag (unzigzag n) = n := by
  unfold zigzag unzigzag
  split <;> split <;> omega

theorem toSInt64_lenient (n : Nat) : toSInt64 n = sint64 n := by
  have h1 : toSInt64 n = toSInt64 (n % 2 ^ 64) := by
    have : UInt64.ofNat n = UInt64.ofNat (n % 2 ^ 64) := by
      apply UInt64.toNat_inj.1; simp
    simp only [toSInt64, this]
  have hlt : n % 2 ^ 64 < 2 ^ 64 := Nat.mod_lt _ (by norm_num)
  rw [h1, sint64]
  generalize n % 2 ^ 64 = k at *
  have h2 : (Int64.ofInt (unzigzag k)).toInt = unzigzag k :=
    Int64.toInt_ofInt_of_le (by unfold unzigzag; split <;> omega) (by unfold unzigzag; split <;> omega)
  have h3 := toSInt64_zigzag (Int64.ofInt (unzigzag k))
  rwa [h2, zigzag_unzigzag] at h3

theorem toSInt32_lenient (n : Nat) : toSInt32 n = sint32 n := by
  have h1 : toSInt32 n = toSInt32 (n % 2 ^ 32) := by
    have : UInt32.ofNat n = UInt32.ofNat (n % 2 ^ 32) := by
      apply UInt32.toNat_inj.1; simp
    simp only [toSInt32, this]
  have hlt : n % 2 ^ 32 < 2 ^ 32 := Nat.mod_lt _ (by norm_num)
  rw [h1, sint32]
  generalize n % 2 ^ 32 = k at *
  have h2 : (Int32.ofInt (unzigzag k)).toInt = unzigzag k :=
    Int32.toInt_ofInt_of_le (by unfold unzigzag; split <;> omega) (by unfold unzigzag; split <;> omega)
  have h3 := toSInt32_zigzag (Int32.ofInt (unzigzag k))
  rwa [h2, zigzag_unzigzag] at h3

/-! ## Merging -/

/-- The payloads of the fields number `t`. -/
def vals (t : Nat) (raw : List Field) : List Val := (seg t raw).map (·.val)

theorem numbered_entries (t : Nat) (raw : List Field) : numbered t (raw.map entryOf) = (vals t raw).map contentOf := by
  simp only [numbered, vals, seg, List.filter_map, List.map_map]
  rfl

/-- Merging the fields of one number changes one component of the message. -/
theorem seg_lens {M C : Type} {step : M → Field → Option M} (t : Nat) (upd : C → Val → Option C) (get : M → C) (set : C → M → M)
    (h : ∀ m v, step m ⟨t, v⟩ = (upd (get m) v).map fun x => set x m) (hgs : ∀ x m, get (set x m) = x)
    (hss : ∀ x y m, set x (set y m) = set x m) (hsg : ∀ m, set (get m) m = m) (raw : List Field) (m : M) :
    (seg t raw).foldlM step m = ((vals t raw).foldlM upd (get m)).map fun x => set x m := by
  have ht : ∀ f ∈ seg t raw, f.tag = t := fun f hf => by simpa using (List.mem_filter.1 hf).2
  unfold vals
  generalize seg t raw = fs at *
  induction fs generalizing m with
  | nil => simp [hsg]
  | cons f fs ih =>
    obtain ⟨tag, v⟩ := f
    have : tag = t := ht ⟨tag, v⟩ (by simp)
    subst this
    simp only [List.foldlM_cons, List.map_cons, h]
    cases upd (get m) v with
    | none => rfl
    | some x =>
      simp only [Option.map_some, Option.bind_eq_bind, Option.bind_some]
      rw [ih (set x m) fun f hf => ht f (by simp [hf])]
      simp [hgs, hss]

theorem foldlM_map_iff {A V X : Type} {upd : A → V → Option A} (g : V → Option X) (comb : A → X → A)
    (h : ∀ a v, upd a v = (g v).map (comb a)) (vs : List V) (a a' : A) :
    vs.foldlM upd a = some a' ↔ ∃ xs, List.Forall₂ (fun v x => g v = some x) vs xs ∧ a' = xs.foldl comb a := by
  induction vs generalizing a with
  | nil => simp [eq_comm]
  | cons v vs ih =>
    simp only [List.foldlM_cons, h, Option.bind_eq_bind]
    cases hv : g v with
    | none =>
      simp only [Option.map_none, Option.bind_none, reduceCtorEq, false_iff]
      rintro ⟨xs, hx, -⟩
      cases hx with
      | cons h1 _ => rw [hv] at h1; cases h1
    | some x =>
      simp only [Option.map_some, Option.bind_some, ih]
      constructor
      · rintro ⟨xs, h1, h2⟩
        exact ⟨x :: xs, .cons hv h1, h2⟩
      · rintro ⟨xs, h1, h2⟩
        cases h1 with
        | cons h1 h3 =>
          rw [hv] at h1; injection h1 with h1; subst h1
          exact ⟨_, h3, h2⟩

theorem foldl_snd {A X : Type} (f : X → A) (xs : List X) (a : A) : xs.foldl (fun _ x => f x) a = (xs.getLast?.map f).getD a := by
  induction xs generalizing a with
  | nil => rfl
  | cons x xs ih => rw [List.foldl_cons, ih, List.getLast?_cons]; cases xs.getLast? <;> rfl

theorem foldl_append_flatten {X : Type} (xss : List (List X)) (a : List X) : xss.foldl (fun a x => a ++ x) a = a ++ xss.flatten := by
  induction xss generalizing a with
  | nil => simp
  | cons x xs ih => rw [List.foldl_cons, ih]; simp

theorem foldl_append_single {X : Type} (xs : List X) (a : List X) : xs.foldl (fun a x => a ++ [x]) a = a ++ xs := by
  induction xs generalizing a with
  | nil => simp
  | cons x xs ih => rw [List.foldl_cons, ih]; simp

theorem getVarint_id (vs : List Val) (ns : List Nat) : List.Forall₂ (fun v n => getVarint (fun n => n) v = some n) vs ns ↔
    vs.map contentOf = ns.map .number := by
  induction vs generalizing ns with
  | nil => cases ns <;> simp
  | cons v vs ih =>
    cases ns with
    | nil => simp
    | cons n ns =>
      rw [List.forall₂_cons, ih]
      cases v <;> simp [getVarint, contentOf]

theorem getVarint_dec {α : Type} (dec : Nat → α) (v : Val) : getVarint dec v = (getVarint (fun n => n) v).map dec := by cases v <;> rfl

theorem getBytes_iff (vs : List Val) (bs : List Bytes) : List.Forall₂ (fun v b => getBytes v = some b) vs bs ↔
    vs.map contentOf = bs.map .bytes := by
  induction vs generalizing bs with
  | nil => cases bs <;> simp
  | cons v vs ih =>
    cases bs with
    | nil => simp
    | cons n ns =>
      rw [List.forall₂_cons, ih]
      cases v <;> simp [getBytes, contentOf]

theorem strOf_iff (b : Bytes) (s : String) : strOf b = some s ↔ b = utf8 s := by
  constructor
  · intro h
    unfold strOf String.fromUTF8? at h
    split at h
    · next hv =>
      simp only [Option.some.injEq] at h
      subst h
      simp [utf8, String.fromUTF8]
    · cases h
  · rintro rfl
    exact strOf_strBytes s

theorem getStr_iff (vs : List Val) (ss : List String) : List.Forall₂ (fun v s => getStr v = some s) vs ss ↔
    vs.map contentOf = ss.map fun s => .bytes (utf8 s) := by
  induction vs generalizing ss with
  | nil => cases ss <;> simp
  | cons v vs ih =>
    cases ss with
    | nil => simp
    | cons n ns =>
      rw [List.forall₂_cons, ih]
      cases v <;> simp [getStr, contentOf, strOf_iff]

theorem unpackGo_some {fuel : Nat} {bs : Bytes} {ns : List Nat} (h : unpackGo fuel bs = some ns) : Spec.Lenient.Packed ns bs := by
  induction fuel generalizing bs ns with
  | zero =>
    cases bs with
    | nil => simp only [unpackGo, Option.some.injEq] at h; subst h; exact ⟨[], .nil, rfl⟩
    | cons b bs => simp [unpackGo] at h
  | succ fuel ih =>
    cases bs with
    | nil => simp only [unpackGo, Option.some.injEq] at h; subst h; exact ⟨[], .nil, rfl⟩
    | cons b bs =>
      rw [unpackGo] at h
      swap
      · simp
      split at h
      · cases h
      · next n r hd =>
        simp only [Option.map_eq_some_iff] at h
        obtain ⟨ns', h1, rfl⟩ := h
        obtain ⟨c, e, hv⟩ := decVarint_iff.1 hd
        obtain ⟨bss, h2, h3⟩ := ih h1
        exact ⟨c :: bss, .cons hv h2, by rw [e, ← h3]; rfl⟩

theorem unpackGo_of' {ns : List Nat} {bs : List Bytes} (h : List.Forall₂ IsVarint ns bs)
    (fuel : Nat) (hf : bs.flatten.length ≤ fuel) : unpackGo fuel bs.flatten = some ns := by
  induction h generalizing fuel with
  | nil => cases fuel <;> rfl
  | @cons n b ns bs h1 h2 ih =>
    obtain ⟨c, cs, rfl⟩ := List.exists_cons_of_ne_nil h1.nonempty
    simp only [List.flatten_cons, List.length_append, List.length_cons] at hf
    cases fuel with
    | zero => omega
    | succ fuel =>
      simp only [List.flatten_cons, List.cons_append, unpackGo]
      rw [← List.cons_append, decVarint_of h1]
      simp only [ih fuel (by omega)]
      rfl

theorem unpack_iff (bs : Bytes) (ns : List Nat) : unpack bs = some ns ↔ Spec.Lenient.Packed ns bs := by
  constructor
  · exact unpackGo_some
  · rintro ⟨bss, h, rfl⟩
    exact unpackGo_of' h _ le_rfl

theorem getRep_dec {α : Type} (dec : Nat → α) (v : Val) : getRep dec v = (getRep (fun n => n) v).map (·.map dec) := by
  cases v <;> simp [getRep]

theorem getRep_iff (vs : List Val) (ps : List (List Nat)) : List.Forall₂ (fun v p => getRep (fun n => n) v = some p) vs ps ↔
    List.Forall₂ Spec.Lenient.Piece (vs.map contentOf) ps := by
  rw [List.forall₂_map_left_iff]
  have : (fun (v : Val) (p : List Nat) => getRep (fun n => n) v = some p) = fun v p => Spec.Lenient.Piece (contentOf v) p := by
    funext v p
    apply propext
    constructor
    · intro h
      cases v with
      | varint n => simp only [getRep, Option.some.injEq] at h; subst h; exact .one
      | len b =>
        simp only [getRep, List.map_id_fun', id_eq, Option.map_id_fun'] at h
        exact .packed ((unpack_iff _ _).1 h)
      | _ => simp [getRep] at h
    · intro h
      generalize hc : contentOf v = c at h
      have hv : v = valOf c := by rw [← hc]; simp
      subst hv
      cases h with
      | one => rfl
      | packed h => simp [valOf, getRep, (unpack_iff _ _).2 h]
  rw [this]

/-! ## Rules -/

section Rules
variable {α : Type} (t : Nat) (raw : List Field)

theorem rule_number {dec ty : Nat → α} (hd : ∀ n, dec n = ty n) (o : Option α) :
    (vals t raw).foldlM (fun _ v => (getVarint dec v).map some) none = some o ↔ Spec.Lenient.Number ty t (raw.map entryOf) o := by
  rw [foldlM_map_iff (getVarint fun n => n) (fun _ n => some (dec n)) (fun a v => by rw [getVarint_dec]; simp [Function.comp_def])]
  simp only [Spec.Lenient.Number, numbered_entries, getVarint_id, foldl_snd, funext hd]
  constructor <;> rintro ⟨ns, h, rfl⟩ <;> exact ⟨ns, h, by cases ns.getLast? <;> rfl⟩

theorem rule_required [OfNat α 0] {dec ty : Nat → α} (hd : ∀ n, dec n = ty n) (x : α) :
    (vals t raw).foldlM (fun _ v => getVarint dec v) 0 = some x ↔ Spec.Lenient.Required ty t (raw.map entryOf) x := by
  rw [foldlM_map_iff (getVarint fun n => n) (fun _ n => dec n) (fun a v => by rw [getVarint_dec])]
  simp only [Spec.Lenient.Required, Spec.Lenient.Number, numbered_entries, getVarint_id, foldl_snd, funext hd]
  constructor
  · rintro ⟨ns, h, rfl⟩; exact ⟨_, ⟨ns, h, rfl⟩, rfl⟩
  · rintro ⟨_, ⟨ns, h, rfl⟩, rfl⟩; exact ⟨ns, h, rfl⟩

theorem rule_numbers {dec ty : Nat → α} (hd : ∀ n, dec n = ty n) (xs : List α) :
    (vals t raw).foldlM (fun a v => (getRep dec v).map (a ++ ·)) [] = some xs ↔ Spec.Lenient.Numbers ty t (raw.map entryOf) xs := by
  rw [foldlM_map_iff (getRep fun n => n) (fun a p => a ++ p.map dec) (fun a v => by rw [getRep_dec]; simp [Function.comp_def])]
  simp only [Spec.Lenient.Numbers, numbered_entries, getRep_iff, funext hd]
  have : ∀ ps : List (List Nat), ps.foldl (fun a p => a ++ p.map ty) [] = ps.flatten.map ty := by
    intro ps
    have := foldl_append_flatten (ps.map (·.map ty)) []
    rw [List.foldl_map] at this
    rw [this, List.map_flatten]; simp
  simp only [this]

theorem rule_string1 (o : Option Bytes) :
    (vals t raw).foldlM (fun _ v => (getBytes v).map some) none = some o ↔ Spec.Lenient.String1 t (raw.map entryOf) o := by
  rw [foldlM_map_iff getBytes (fun _ b => some b) (fun a v => rfl)]
  simp only [Spec.Lenient.String1, numbered_entries, getBytes_iff, foldl_snd]
  constructor <;> rintro ⟨ns, h, rfl⟩ <;> exact ⟨ns, h, by cases ns.getLast? <;> rfl⟩

theorem rule_strings (bs : List Bytes) :
    (vals t raw).foldlM (fun a v => (getBytes v).map fun b => a ++ [b]) [] = some bs ↔ Spec.Lenient.Strings t (raw.map entryOf) bs := by
  rw [foldlM_map_iff getBytes (fun a b => a ++ [b]) (fun a v => rfl)]
  simp only [Spec.Lenient.Strings, numbered_entries, getBytes_iff, foldl_append_single, List.nil_append]
  constructor
  · rintro ⟨_, h, rfl⟩; exact h
  · intro h; exact ⟨_, h, rfl⟩

theorem rule_text1 (o : Option String) :
    (vals t raw).foldlM (fun _ v => (getStr v).map some) none = some o ↔ Spec.Lenient.Text1 t (raw.map entryOf) o := by
  rw [foldlM_map_iff getStr (fun _ b => some b) (fun a v => rfl)]
  simp only [Spec.Lenient.Text1, numbered_entries, getStr_iff, foldl_snd]
  constructor <;> rintro ⟨ns, h, rfl⟩ <;> exact ⟨ns, h, by cases ns.getLast? <;> rfl⟩

theorem rule_text (s : String) :
    (vals t raw).foldlM (fun _ v => getStr v) "" = some s ↔ ∃ o, Spec.Lenient.Text1 t (raw.map entryOf) o ∧ s = o.getD "" := by
  rw [foldlM_map_iff getStr (fun _ b => b) (fun a v => by simp)]
  simp only [Spec.Lenient.Text1, numbered_entries, getStr_iff, foldl_snd]
  constructor
  · rintro ⟨ns, h, rfl⟩; exact ⟨_, ⟨ns, h, rfl⟩, by simp⟩
  · rintro ⟨_, ⟨ns, h, rfl⟩, rfl⟩; exact ⟨ns, h, by simp⟩

theorem rule_texts (ss : List String) :
    (vals t raw).foldlM (fun a v => (getStr v).map fun b => a ++ [b]) [] = some ss ↔ Spec.Lenient.Texts t (raw.map entryOf) ss := by
  rw [foldlM_map_iff getStr (fun a b => a ++ [b]) (fun a v => rfl)]
  simp only [Spec.Lenient.Texts, numbered_entries, getStr_iff, foldl_append_single, List.nil_append]
  constructor
  · rintro ⟨_, h, rfl⟩; exact h
  · intro h; exact ⟨_, h, rfl⟩

theorem message_iff {depth : Nat} {M : List Entry → α → Prop} {step : α → Field → Option α} {d : α}
    (hm : ∀ (raw : List Field) (m : α), raw.foldlM step d = some m ↔ M (raw.map entryOf) m) (b : Bytes) (m : α) :
    ((parse (depth + 1) b).bind fun fs => fs.foldlM step d) = some m ↔ Spec.Lenient.Message depth M b m := by
  simp only [Option.bind_eq_some_iff, parse_iff, hm, Spec.Lenient.Message]
  constructor
  · rintro ⟨raw, h1, h2⟩; exact ⟨_, h1, h2⟩
  · rintro ⟨fs, h1, h2⟩
    obtain ⟨raw, rfl⟩ := entries_surjective fs
    exact ⟨raw, h1, h2⟩

theorem rule_messages {depth : Nat} {M : List Entry → α → Prop} {dec : Bytes → Option α}
    (hm : ∀ b m, dec b = some m ↔ Spec.Lenient.Message depth M b m) (ms : List α) :
    (vals t raw).foldlM (fun a v => (getBytes v).bind fun b => (dec b).map fun x => a ++ [x]) [] = some ms ↔
      Spec.Lenient.Messages depth M t (raw.map entryOf) ms := by
  rw [foldlM_map_iff (fun v => (getBytes v).bind dec) (fun a b => a ++ [b]) (fun a v => by cases getBytes v <;> rfl)]
  simp only [Spec.Lenient.Messages, numbered_entries, ← getBytes_iff, foldl_append_single, List.nil_append]
  generalize vals t raw = vs
  have key : List.Forall₂ (fun v x => (getBytes v).bind dec = some x) vs ms ↔ ∃ bs, List.Forall₂ (fun v b => getBytes v = some b) vs bs ∧
      List.Forall₂ (Spec.Lenient.Message depth M) bs ms := by
    induction vs generalizing ms with
    | nil => cases ms <;> simp
    | cons v vs ih =>
      cases ms with
      | nil =>
        simp only [List.forall₂_nil_right_iff, reduceCtorEq, false_iff]
        rintro ⟨bs, h1, h2⟩
        cases h2; cases h1
      | cons m ms =>
        rw [List.forall₂_cons, ih]
        simp only [Option.bind_eq_some_iff, hm]
        constructor
        · rintro ⟨⟨b, h1, h2⟩, bs, h3, h4⟩
          exact ⟨b :: bs, .cons h1 h3, .cons h2 h4⟩
        · rintro ⟨bs, h1, h2⟩
          cases h1 with
          | cons h1 h3 => cases h2 with
            | cons h2 h4 => exact ⟨⟨_, h1, h2⟩, _, h3, h4⟩
  rw [← key]
  constructor
  · rintro ⟨_, h, rfl⟩; exact h
  · intro h; exact ⟨_, h, rfl⟩

theorem foldlM_join {step : α → Field → Option α} {count : Nat} (vs : List Val) (m m' : α) :
    vs.foldlM (fun m v => (getBytes v).bind fun b => (parse count b).bind fun fs => fs.foldlM step m) m = some m' ↔
      ∃ (bs : List Bytes) (raws : List (List Field)), List.Forall₂ (fun v b => getBytes v = some b) vs bs ∧
        List.Forall₂ (fun fs b => parse count b = some fs) raws bs ∧ raws.flatten.foldlM step m = some m' := by
  induction vs generalizing m with
  | nil =>
    simp only [List.foldlM_nil, List.forall₂_nil_left_iff]
    constructor
    · intro h; exact ⟨[], [], rfl, .nil, h⟩
    · rintro ⟨bs, raws, rfl, h2, h3⟩; cases h2; exact h3
  | cons v vs ih =>
    simp only [List.foldlM_cons, Option.bind_eq_bind, Option.bind_eq_some_iff, ih]
    constructor
    · rintro ⟨m1, ⟨b, h1, fs, h2, h3⟩, bs, raws, h4, h5, h6⟩
      refine ⟨b :: bs, fs :: raws, .cons h1 h4, .cons h2 h5, ?_⟩
      simp [List.foldlM_append, h3, h6]
    · rintro ⟨bs, raws, h1, h2, h3⟩
      cases h1 with
      | cons h1 h4 => cases h2 with
        | cons h2 h5 =>
          simp only [List.flatten_cons, List.foldlM_append, Option.bind_eq_bind, Option.bind_eq_some_iff] at h3
          obtain ⟨m1, h6, h7⟩ := h3
          exact ⟨m1, ⟨_, h1, _, h2, h6⟩, _, _, h4, h5, h7⟩

theorem foldlM_getD {upd : α → Val → Option α} (d : α) (vs : List Val) (o o' : Option α) :
    vs.foldlM (fun o v => (upd (o.getD d) v).map some) o = some o' ↔
      (vs = [] ∧ o' = o) ∨ (vs ≠ [] ∧ ∃ m, o' = some m ∧ vs.foldlM upd (o.getD d) = some m) := by
  induction vs generalizing o with
  | nil => simp [eq_comm]
  | cons v vs ih =>
    simp only [List.foldlM_cons, Option.bind_eq_bind, reduceCtorEq, false_and, ne_eq, not_false_eq_true, true_and, false_or]
    cases hu : upd (o.getD d) v with
    | none => simp
    | some x =>
      simp only [Option.map_some, Option.bind_some, ih, Option.getD_some]
      constructor
      · rintro (⟨rfl, rfl⟩ | ⟨-, m, rfl, h⟩)
        · exact ⟨x, rfl, rfl⟩
        · exact ⟨m, rfl, h⟩
      · rintro ⟨m, rfl, h⟩
        cases vs with
        | nil => simp only [List.foldlM_nil, Option.pure_def, Option.some.injEq] at h; subst h; exact .inl ⟨rfl, rfl⟩
        | cons => exact .inr ⟨by simp, m, rfl, h⟩

theorem rule_joined {depth : Nat} {M : List Entry → α → Prop} {step : α → Field → Option α} {d : α}
    (hm : ∀ (raw : List Field) (m : α), raw.foldlM step d = some m ↔ M (raw.map entryOf) m) (m : α) :
    (vals t raw).foldlM (fun m v => (getBytes v).bind fun b => (parse (depth + 1) b).bind fun fs => fs.foldlM step m) d = some m ↔
      Spec.Lenient.Joined depth M t (raw.map entryOf) m := by
  rw [foldlM_join]
  simp only [Spec.Lenient.Joined, numbered_entries, ← getBytes_iff, parse_iff, hm]
  constructor
  · rintro ⟨bs, raws, h1, h2, h3⟩
    refine ⟨bs, raws.map (·.map entryOf), h1, ?_, by rwa [← List.map_flatten]⟩
    rw [List.forall₂_map_left_iff]; exact h2
  · rintro ⟨bs, parts, h1, h2, h3⟩
    obtain ⟨raws, rfl⟩ : ∃ raws : List (List Field), raws.map (·.map entryOf) = parts := by
      clear h2 h3
      induction parts with
      | nil => exact ⟨[], rfl⟩
      | cons p ps ih =>
        obtain ⟨r, rfl⟩ := entries_surjective p
        obtain ⟨rs, rfl⟩ := ih
        exact ⟨r :: rs, rfl⟩
    rw [List.forall₂_map_left_iff] at h2
    exact ⟨bs, raws, h1, h2, by rwa [List.map_flatten]⟩

theorem rule_joined1 {depth : Nat} {M : List Entry → α → Prop} {step : α → Field → Option α} {d : α}
    (hm : ∀ (raw : List Field) (m : α), raw.foldlM step d = some m ↔ M (raw.map entryOf) m) (o : Option α) :
    (vals t raw).foldlM (fun o v => ((getBytes v).bind fun b => (parse (depth + 1) b).bind fun fs => fs.foldlM step (o.getD d)).map some) none = some o ↔
      Spec.Lenient.Joined1 depth M t (raw.map entryOf) o := by
  rw [foldlM_getD (upd := fun m v => (getBytes v).bind fun b => (parse (depth + 1) b).bind fun fs => fs.foldlM step m) d]
  simp only [Option.getD_none, rule_joined t raw hm]
  cases o with
  | none => simp [Spec.Lenient.Joined1, numbered_entries]
  | some m => simp [Spec.Lenient.Joined1, numbered_entries]

end Rules

end OsmIo
