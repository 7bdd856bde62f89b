import Verif.Model.ForEach
import Verif.Lemmas.Pool
/-! # Lemmas on `parallel_for_each` as a whole -/
set_option linter.unusedSimpArgs false
set_option linter.flexible false
namespace OsmIo.ForEach
variable {T : Nat} {σ : Type}

/-- The calls made for blob `k`. -/
def callsFor (p : ForEach T σ) (k : Nat) : List (Fin T × Nat × Element × Bool) := p.log.filter fun x => x.2.1 = k

/-- What is known about a blob whose command has ended. -/
inductive Ended (p : ForEach T σ) (k : Nat) : Option (List Element) → Prop
  | all (i) (es) (h : callsFor p k = es.map fun e => (i, k, e, true)) : Ended p k (some es)
  | failed (i) (pre e post) (h : callsFor p k = (pre.map fun e => (i, k, e, true)) ++ [(i, k, e, false)]) : Ended p k (some (pre ++ e :: post))
  | unreadable (h : callsFor p k = []) : Ended p k none

structure Inv (cmds : List (Option (List Element))) (p : ForEach T σ) : Prop where
  le : p.sent ≤ cmds.length
  left : p.left = cmds.drop p.sent
  nodup : (p.queue.map (·.1)).Nodup
  queue : ∀ x ∈ p.queue, x.1 < p.sent ∧ cmds[x.1]? = some x.2 ∧ callsFor p x.1 = []
  running : ∀ i k rest, p.running i = some (k, rest) → k < p.sent ∧ k ∉ p.queue.map (·.1) ∧
    ∃ done, cmds[k]? = some (some (done ++ rest)) ∧ callsFor p k = done.map fun e => (i, k, e, true)
  one : ∀ i j k r r', p.running i = some (k, r) → p.running j = some (k, r') → i = j
  ahead : ∀ k, p.sent ≤ k → callsFor p k = []
  ended : ∀ k < p.sent, k ∉ p.queue.map (·.1) → (∀ i r, p.running i ≠ some (k, r)) → ∃ c, cmds[k]? = some c ∧ Ended p k c
  joined : p.returned = true → p.left = [] ∧ p.queue = [] ∧ ∀ i, p.running i = none

theorem init_inv (cmds : List (Option (List Element))) (s : σ) : Inv cmds (init (T := T) cmds s) := by
  refine ⟨by simp [init], by simp [init], by simp [init], by simp [init], by simp [init], by simp [init], by simp [init, callsFor], ?_, by simp [init]⟩
  intro k hk
  simp [init] at hk

theorem callsFor_snoc (p : ForEach T σ) (x : Fin T × Nat × Element × Bool) (k : Nat) (q : ForEach T σ) (hq : q.log = p.log ++ [x]) :
    callsFor q k = callsFor p k ++ if x.2.1 = k then [x] else [] := by
  unfold callsFor
  rw [hq, List.filter_append]
  by_cases h : x.2.1 = k <;> simp [h]

theorem Ended.congr {p q : ForEach T σ} {k : Nat} {c : Option (List Element)} (h : Ended p k c) (he : callsFor q k = callsFor p k) : Ended q k c := by
  cases h with
  | all i es h => exact .all i es (he.trans h)
  | failed i pre e post h => exact .failed i pre e post (he.trans h)
  | unreadable h => exact .unreadable (he.trans h)

theorem step_inv {f : Fin T → Element → σ → σ × Bool} {cap : Nat} {cmds : List (Option (List Element))} {p q : ForEach T σ} (h : Inv cmds p)
    (hs : Step f cap p q) : Inv cmds q := by
  obtain ⟨i0, i1, i2, i3, i4, i5, i6, i7, i8⟩ := h
  cases hs with
  | submit c rest hl hc =>
    have hlt : p.sent < cmds.length := by
      by_contra hn
      rw [i1, List.drop_of_length_le (by omega)] at hl
      simp at hl
    have hc : cmds[p.sent]? = some c ∧ rest = cmds.drop (p.sent + 1) := by
      rw [i1, List.drop_eq_getElem_cons hlt, List.cons.injEq] at hl
      exact ⟨by rw [List.getElem?_eq_getElem hlt, hl.1], hl.2.symm⟩
    have hfresh : p.sent ∉ p.queue.map (·.1) := by
      intro hm
      obtain ⟨x, hx, he⟩ := List.mem_map.mp hm
      have := (i3 x hx).1
      omega
    refine ⟨hlt, hc.2, ?_, ?_, ?_, i5, fun k hk => i6 k (by simp at hk; omega), ?_, ?_⟩
    · rw [List.map_append, List.nodup_append]
      refine ⟨i2, by simp, ?_⟩
      intro a ha b hb
      simp at hb
      subst hb
      rintro rfl
      exact hfresh ha
    · intro x hx
      simp only [List.mem_append, List.mem_singleton] at hx
      rcases hx with hx | rfl
      · obtain ⟨h1, h2, h3⟩ := i3 x hx
        exact ⟨by simp; omega, h2, h3⟩
      · exact ⟨by simp, hc.1, i6 _ le_rfl⟩
    · intro i k rest' hr
      obtain ⟨h1, h2, h3⟩ := i4 i k rest' hr
      refine ⟨by simp; omega, ?_, h3⟩
      simp only [List.map_append, List.mem_append, not_or]
      exact ⟨h2, by simp; omega⟩
    · intro k hk hkq hkr
      simp only [List.map_append, List.mem_append, not_or] at hkq
      have : k ≠ p.sent := by simpa using hkq.2
      exact (i7 k (by simp at hk; omega) hkq.1 hkr).imp fun c hc => ⟨hc.1, hc.2.congr rfl⟩
    · intro hr
      have := (i8 hr).1
      simp [this] at hl
  | take i l r k es hq hi hd =>
    have hmem : (k, some es) ∈ p.queue := by simp [hq]
    obtain ⟨hk1, hk2, hk3⟩ := i3 _ hmem
    have hnd := i2
    rw [hq] at hnd
    simp only [List.map_append, List.map_cons] at hnd
    have hkn : k ∉ (l ++ r).map (·.1) := by
      rw [List.map_append]
      have := (List.perm_middle.nodup_iff.mp hnd)
      exact (List.nodup_cons.mp this).1
    have hsub : ∀ x ∈ l ++ r, x ∈ p.queue := by
      intro x hx
      rw [hq]
      simp at hx ⊢
      tauto
    refine ⟨i0, i1, ?_, fun x hx => i3 x (hsub x hx), ?_, ?_, i6, ?_, ?_⟩
    · rw [List.map_append]
      exact (List.nodup_cons.mp (List.perm_middle.nodup_iff.mp hnd)).2
    · intro j k' rest hr
      by_cases hj : j = i
      · subst hj
        simp only [Function.update_self, Option.some.injEq, Prod.mk.injEq] at hr
        obtain ⟨rfl, rfl⟩ := hr
        exact ⟨hk1, hkn, [], by simpa using hk2, hk3⟩
      · simp only [Function.update_of_ne hj] at hr
        obtain ⟨h1, h2, h3⟩ := i4 j k' rest hr
        refine ⟨h1, fun hm => h2 ?_, h3⟩
        obtain ⟨x, hx, rfl⟩ := List.mem_map.mp hm
        exact List.mem_map.mpr ⟨x, hsub x hx, rfl⟩
    · have hother : ∀ j r', p.running j ≠ some (k, r') := by
        intro j r' hr
        exact (i4 j k r' hr).2.1 (List.mem_map.mpr ⟨_, hmem, rfl⟩)
      intro a b k' ra rb ha hb
      by_cases haj : a = i <;> by_cases hbj : b = i
      · rw [haj, hbj]
      · subst haj
        simp only [Function.update_self, Function.update_of_ne hbj, Option.some.injEq, Prod.mk.injEq] at ha hb
        obtain ⟨rfl, rfl⟩ := ha
        exact absurd hb (hother _ _)
      · subst hbj
        simp only [Function.update_self, Function.update_of_ne haj, Option.some.injEq, Prod.mk.injEq] at ha hb
        obtain ⟨rfl, rfl⟩ := hb
        exact absurd ha (hother _ _)
      · simp only [Function.update_of_ne haj, Function.update_of_ne hbj] at ha hb
        exact i5 a b k' ra rb ha hb
    · intro k' hk' hkq hkr
      have hne : k' ≠ k := by
        rintro rfl
        exact hkr i es (by simp)
      refine (i7 k' hk' ?_ ?_).imp fun c hc => ⟨hc.1, hc.2.congr rfl⟩
      · rw [hq]
        simp only [List.map_append, List.map_cons, List.mem_append, List.mem_cons, not_or] at hkq ⊢
        exact ⟨hkq.1, hne, hkq.2⟩
      · intro j r' hr
        by_cases hj : j = i
        · subst hj; simp [hi] at hr
        · exact hkr j r' (by simpa [Function.update_of_ne hj] using hr)
    · intro hr
      have := (i8 hr).2.1
      simp [this] at hq
  | unreadable i l r k d hq hi hd =>
    have hmem : (k, none) ∈ p.queue := by simp [hq]
    obtain ⟨hk1, hk2, hk3⟩ := i3 _ hmem
    have hnd := i2
    rw [hq] at hnd
    simp only [List.map_append, List.map_cons] at hnd
    have hsub : ∀ x ∈ l ++ r, x ∈ p.queue := by
      intro x hx
      rw [hq]
      simp at hx ⊢
      tauto
    refine ⟨i0, i1, ?_, fun x hx => i3 x (hsub x hx), ?_, i5, i6, ?_, ?_⟩
    · rw [List.map_append]
      exact (List.nodup_cons.mp (List.perm_middle.nodup_iff.mp hnd)).2
    · intro j k' rest hr
      obtain ⟨h1, h2, h3⟩ := i4 j k' rest hr
      refine ⟨h1, fun hm => h2 ?_, h3⟩
      obtain ⟨x, hx, rfl⟩ := List.mem_map.mp hm
      exact List.mem_map.mpr ⟨x, hsub x hx, rfl⟩
    · intro k' hk' hkq hkr
      by_cases hne : k' = k
      · subst hne
        exact ⟨none, hk2, .unreadable hk3⟩
      · refine (i7 k' hk' ?_ hkr).imp fun c hc => ⟨hc.1, hc.2.congr rfl⟩
        rw [hq]
        simp only [List.map_append, List.map_cons, List.mem_append, List.mem_cons, not_or] at hkq ⊢
        exact ⟨hkq.1, hne, hkq.2⟩
    · intro hr
      have := (i8 hr).2.1
      simp [this] at hq
  | call i k e rest hi hf =>
    obtain ⟨hk1, hk2, done, hk3, hk4⟩ := i4 i k _ hi
    have hlog := fun k' => callsFor_snoc p (i, k, e, true) k' { p with running := Function.update p.running i (some (k, rest)), shared := (f i e p.shared).1, log := p.log ++ [(i, k, e, true)] } rfl
    have hother : ∀ k', k' ≠ k → callsFor { p with running := Function.update p.running i (some (k, rest)), shared := (f i e p.shared).1, log := p.log ++ [(i, k, e, true)] } k' = callsFor p k' := by
      intro k' hne
      rw [hlog k', if_neg (by simpa using hne.symm)]
      simp
    refine ⟨i0, i1, i2, ?_, ?_, ?_, ?_, ?_, ?_⟩
    · intro x hx
      obtain ⟨h1, h2, h3⟩ := i3 x hx
      refine ⟨h1, h2, ?_⟩
      rw [hother _ (by rintro rfl; exact hk2 (List.mem_map.mpr ⟨x, hx, rfl⟩)), h3]
    · intro j k' r' hr
      by_cases hj : j = i
      · subst hj
        simp only [Function.update_self, Option.some.injEq, Prod.mk.injEq] at hr
        obtain ⟨rfl, rfl⟩ := hr
        refine ⟨hk1, hk2, done ++ [e], by simpa using hk3, ?_⟩
        rw [hlog k, if_pos rfl, hk4]
        simp
      · simp only [Function.update_of_ne hj] at hr
        obtain ⟨h1, h2, d', h3, h4⟩ := i4 j k' r' hr
        refine ⟨h1, h2, d', h3, ?_⟩
        rw [hother k' (by rintro rfl; exact hj (i5 j i k' _ _ hr hi)), h4]
    · intro a b k' ra rb ha hb
      have key : ∀ a ra, Function.update p.running i (some (k, rest)) a = some (k', ra) → ∃ ra', p.running a = some (k', ra') := by
        intro a ra ha
        by_cases haj : a = i
        · subst haj
          simp only [Function.update_self, Option.some.injEq, Prod.mk.injEq] at ha
          exact ⟨_, by rw [hi, ha.1]⟩
        · simp only [Function.update_of_ne haj] at ha
          exact ⟨_, ha⟩
      obtain ⟨_, ha⟩ := key a ra ha
      obtain ⟨_, hb⟩ := key b rb hb
      exact i5 a b k' _ _ ha hb
    · intro k' hk'
      rw [hother k' (by rintro rfl; simp at hk'; omega), i6 k' hk']
    · intro k' hk' hkq hkr
      have hne : k' ≠ k := by
        rintro rfl
        exact hkr i rest (by simp)
      refine (i7 k' hk' hkq ?_).imp fun c hc => ⟨hc.1, hc.2.congr (hother k' hne)⟩
      intro j r' hr
      by_cases hj : j = i
      · subst hj
        rw [hi] at hr
        simp at hr
        exact hne hr.1.symm
      · exact hkr j r' (by simpa [Function.update_of_ne hj] using hr)
    · intro hr
      have := (i8 hr).2.2 i
      simp [hi] at this
  | fail i k e rest d hi hf =>
    obtain ⟨hk1, hk2, done, hk3, hk4⟩ := i4 i k _ hi
    have hlog := fun k' => callsFor_snoc p (i, k, e, false) k' { p with running := Function.update p.running i none, shared := (f i e p.shared).1, log := p.log ++ [(i, k, e, false)], dead := Function.update p.dead i d } rfl
    have hother : ∀ k', k' ≠ k → callsFor { p with running := Function.update p.running i none, shared := (f i e p.shared).1, log := p.log ++ [(i, k, e, false)], dead := Function.update p.dead i d } k' = callsFor p k' := by
      intro k' hne
      rw [hlog k', if_neg (by simpa using hne.symm)]
      simp
    have hrun : ∀ j k' r', Function.update p.running i none j = some (k', r') → j ≠ i ∧ p.running j = some (k', r') := by
      intro j k' r' hr
      by_cases hj : j = i
      · subst hj; simp at hr
      · exact ⟨hj, by simpa [Function.update_of_ne hj] using hr⟩
    refine ⟨i0, i1, i2, ?_, ?_, ?_, ?_, ?_, ?_⟩
    · intro x hx
      obtain ⟨h1, h2, h3⟩ := i3 x hx
      refine ⟨h1, h2, ?_⟩
      rw [hother _ (by rintro rfl; exact hk2 (List.mem_map.mpr ⟨x, hx, rfl⟩)), h3]
    · intro j k' r' hr
      obtain ⟨hj, hr'⟩ := hrun j k' r' hr
      obtain ⟨h1, h2, d', h3, h4⟩ := i4 j k' r' hr'
      refine ⟨h1, h2, d', h3, ?_⟩
      rw [hother k' (by rintro rfl; exact hj (i5 j i k' _ _ hr' hi)), h4]
    · intro a b k' ra rb ha hb
      exact i5 a b k' _ _ (hrun a k' ra ha).2 (hrun b k' rb hb).2
    · intro k' hk'
      rw [hother k' (by rintro rfl; simp at hk'; omega), i6 k' hk']
    · intro k' hk' hkq hkr
      by_cases hne : k' = k
      · subst hne
        refine ⟨_, hk3, .failed i done e rest ?_⟩
        rw [hlog k', if_pos rfl, hk4]
      · refine (i7 k' hk' hkq ?_).imp fun c hc => ⟨hc.1, hc.2.congr (hother k' hne)⟩
        intro j r' hr
        by_cases hj : j = i
        · subst hj
          rw [hi] at hr
          simp at hr
          exact hne hr.1.symm
        · exact hkr j r' (by simpa [Function.update_of_ne hj] using hr)
    · intro hr
      have := (i8 hr).2.2 i
      simp [hi] at this
  | finish i k hi =>
    obtain ⟨hk1, hk2, done, hk3, hk4⟩ := i4 i k _ hi
    have hrun : ∀ j k' r', Function.update p.running i none j = some (k', r') → j ≠ i ∧ p.running j = some (k', r') := by
      intro j k' r' hr
      by_cases hj : j = i
      · subst hj; simp at hr
      · exact ⟨hj, by simpa [Function.update_of_ne hj] using hr⟩
    refine ⟨i0, i1, i2, i3, ?_, ?_, i6, ?_, ?_⟩
    · intro j k' r' hr
      exact i4 j k' r' (hrun j k' r' hr).2
    · intro a b k' ra rb ha hb
      exact i5 a b k' _ _ (hrun a k' ra ha).2 (hrun b k' rb hb).2
    · intro k' hk' hkq hkr
      by_cases hne : k' = k
      · subst hne
        exact ⟨_, hk3, .all i _ (by rw [List.append_nil]; exact hk4)⟩
      · refine (i7 k' hk' hkq ?_).imp fun c hc => ⟨hc.1, hc.2.congr rfl⟩
        intro j r' hr
        by_cases hj : j = i
        · subst hj
          rw [hi] at hr
          simp at hr
          exact hne hr.1.symm
        · exact hkr j r' (by simpa [Function.update_of_ne hj] using hr)
    · intro hr
      have := (i8 hr).2.2 i
      simp [hi] at this
  | join hr hl hq hi =>
    exact ⟨i0, i1, i2, i3, i4, i5, i6, fun k hk hkq hkr => (i7 k hk hkq hkr).imp fun c hc => ⟨hc.1, hc.2.congr rfl⟩, fun _ => ⟨hl, hq, hi⟩⟩

theorem steps_inv {f : Fin T → Element → σ → σ × Bool} {cap : Nat} {cmds : List (Option (List Element))} {p q : ForEach T σ} (h : Inv cmds p)
    (hs : Steps f cap p q) : Inv cmds q := by
  induction hs with
  | refl => exact h
  | tail _ hs ih => exact step_inv ih hs

/-- The state shared by the calls is the result of the calls made, in order. -/
theorem steps_effect {f : Fin T → Element → σ → σ × Bool} {cap : Nat} {cmds : List (Option (List Element))} {s : σ} {p : ForEach T σ}
    (hs : Steps f cap (init cmds s) p) :
    p.shared = p.log.foldl (fun s x => (f x.1 x.2.2.1 s).1) s ∧
    ∀ l x r, p.log = l ++ x :: r → x.2.2.2 = (f x.1 x.2.2.1 (l.foldl (fun s x => (f x.1 x.2.2.1 s).1) s)).2 := by
  induction hs with
  | refl => exact ⟨rfl, by simp [init]⟩
  | @tail q t _ hs ih =>
    have key : ∀ x : Fin T × Nat × Element × Bool, x.2.2.2 = (f x.1 x.2.2.1 q.shared).2 → ∀ l y r, q.log ++ [x] = l ++ y :: r →
        y.2.2.2 = (f y.1 y.2.2.1 (l.foldl (fun s x => (f x.1 x.2.2.1 s).1) s)).2 := by
      intro x hx l y r h
      rcases List.eq_nil_or_concat r with rfl | ⟨r', z, rfl⟩
      · have h' := List.append_inj' (s₁ := q.log) (t₁ := [x]) (s₂ := l) (t₂ := [y]) h rfl
        obtain ⟨h1, h2⟩ := h'
        simp at h2
        subst h2
        rw [hx, ih.1, h1]
      · have h' : q.log ++ [x] = (l ++ y :: r') ++ [z] := by simpa using h
        exact ih.2 l y r' (List.append_inj' h' rfl).1
    cases hs with
    | call i k e rest hi hf =>
      refine ⟨?_, key _ hf.symm⟩
      show (f i e q.shared).1 = _
      rw [List.foldl_append, ← ih.1]
      rfl
    | fail i k e rest d hi hf =>
      refine ⟨?_, key _ hf.symm⟩
      show (f i e q.shared).1 = _
      rw [List.foldl_append, ← ih.1]
      rfl
    | submit | take | unreadable | finish | join => exact ih

theorem progress {f : Fin T → Element → σ → σ × Bool} {cap : Nat} (hT : 0 < T) (hcap : 0 < cap) {p : ForEach T σ} (hd : ∀ i, p.dead i = false)
    (hr : p.returned = false) : ∃ q, Step f cap p q ∧ ∀ i, q.dead i = false := by
  have hupd : ∀ i j, Function.update p.dead i false j = false := by
    intro i j
    by_cases hj : j = i
    · subst hj; simp
    · simp [Function.update_of_ne hj, hd]
  by_cases hrun : ∃ i, p.running i ≠ none
  · obtain ⟨i, hi⟩ := hrun
    obtain ⟨⟨k, rest⟩, hk⟩ := Option.ne_none_iff_exists'.mp hi
    cases rest with
    | nil => exact ⟨_, .finish p i k hk, hd⟩
    | cons e rest =>
      cases hf : (f i e p.shared).2 with
      | true => exact ⟨_, .call p i k e rest hk hf, hd⟩
      | false => exact ⟨_, .fail p i k e rest false hk hf, hupd i⟩
  · have hidle : ∀ i, p.running i = none := by simpa using hrun
    cases hq : p.queue with
    | cons x r =>
      obtain ⟨k, c⟩ := x
      cases c with
      | none => exact ⟨_, .unreadable p ⟨0, hT⟩ [] r k false hq (hidle _) (hd _), hupd _⟩
      | some es => exact ⟨_, .take p ⟨0, hT⟩ [] r k es hq (hidle _) (hd _), hd⟩
    | nil =>
      cases hl : p.left with
      | cons c rest => exact ⟨_, .submit p c rest hl (by simp [hq, hcap]), hd⟩
      | nil => exact ⟨_, .join p hr hl hq hidle, hd⟩

/-- Calls to be made for a command. -/
def size (c : Option (List Element)) : Nat := (c.getD []).length

/-- The work left. -/
def work (p : ForEach T σ) : Nat :=
  (p.left.map fun c => size c + 3).sum + (p.queue.map fun x => size x.2 + 2).sum +
    (∑ i, ((p.running i).map fun c => c.2.length + 1).getD 0) + if p.returned then 0 else 1

theorem step_work {f : Fin T → Element → σ → σ × Bool} {cap : Nat} {p q : ForEach T σ} (hs : Step f cap p q) : work q < work p := by
  cases hs with
  | submit c rest hl hc => simp [work, hl]; omega
  | take i l r k es hq hi hd =>
    have := Pool.sum_update p.running i (some (k, es))
    simp only [hi] at this
    simp [work, hq, size] at this ⊢
    omega
  | unreadable i l r k d hq hi hd => simp [work, hq, size]
  | call i k e rest hi hf =>
    have := Pool.sum_update p.running i (some (k, rest))
    simp only [hi] at this
    simp [work] at this ⊢
    omega
  | fail i k e rest d hi hf =>
    have := Pool.sum_update p.running i none
    simp only [hi] at this
    simp [work] at this ⊢
    omega
  | finish i k hi =>
    have := Pool.sum_update p.running i none
    simp only [hi] at this
    simp [work] at this ⊢
    omega
  | join hr hl hq hi => simp [work, hr]

end OsmIo.ForEach
