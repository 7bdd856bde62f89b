import Verif.Model.Pool
import Mathlib.Data.List.Perm.Basic
import Mathlib.Data.List.Nodup
import Mathlib.Algebra.BigOperators.Group.Finset.Piecewise
import Mathlib.Algebra.BigOperators.Fin
import Mathlib.Data.Fintype.BigOperators
/-! # Invariants of the thread pool -/
set_option linter.unusedSimpArgs false
set_option linter.flexible false
namespace OsmIo
namespace Pool
variable {T : Nat} {α σ : Type}

/-- The log entries of one command. -/
def logOf (log : List (Fin T × Nat × α)) (k : Nat) : List (Fin T × Nat × α) := log.filter fun x => x.2.1 = k

/-- Where command `k` with actions `c` is: waiting, on a thread, or executed. -/
inductive Where (p : Pool T α σ) (k : Nat) (c : List α) : Prop
  | waiting (h : (k, c) ∈ p.pending) (hl : logOf p.log k = [])
  | on (i : Fin T) (rest : List α) (h : p.running i = some (k, rest))
      (hl : (logOf p.log k).map (·.2.2) ++ rest = c) (hi : ∀ x ∈ logOf p.log k, x.1 = i)
  | done (i : Option (Fin T)) (hl : (logOf p.log k).map (·.2.2) = c) (hi : ∀ x ∈ logOf p.log k, some x.1 = i)
      (hn : ∀ j r, p.running j ≠ some (k, r)) (hp : k ∉ p.pending.map (·.1))

structure Inv (act : Fin T → α → σ → σ) (cmds : List (List α)) (s0 : σ) (p : Pool T α σ) : Prop where
  fold : p.shared = p.log.foldl (fun s x => act x.1 x.2.2 s) s0
  bound : ∀ x ∈ p.log, x.2.1 < cmds.length
  pend : ∀ c ∈ p.pending, cmds[c.1]? = some c.2
  nodup : (p.pending.map (·.1)).Nodup
  run : ∀ i k rest, p.running i = some (k, rest) → k < cmds.length ∧ k ∉ p.pending.map (·.1)
  runinj : ∀ i j k r r', p.running i = some (k, r) → p.running j = some (k, r') → i = j
  loc : ∀ k c, cmds[k]? = some c → Where p k c

theorem init_inv (act : Fin T → α → σ → σ) (cmds : List (List α)) (s0 : σ) : Inv act cmds s0 (init (T := T) cmds s0) := by
  have hmem : ∀ k c, (k, c) ∈ cmds.zipIdx.map (fun c => (c.2, c.1)) ↔ cmds[k]? = some c := by
    intro k c
    simp [List.mem_zipIdx_iff_getElem?]
  refine ⟨rfl, by simp [init], ?_, ?_, by simp [init], by simp [init], ?_⟩
  · intro c hc; exact (hmem c.1 c.2).mp hc
  · simp only [init, List.map_map]
    rw [show ((fun x : Nat × List α => x.1) ∘ fun c : List α × Nat => (c.2, c.1)) = Prod.snd from rfl]
    rw [List.zipIdx_map_snd]
    exact List.nodup_range'
  · intro k c hc
    exact .waiting ((hmem k c).mpr hc) rfl

theorem logOf_append (log : List (Fin T × Nat × α)) (i : Fin T) (k : Nat) (a : α) (k' : Nat) :
    logOf (log ++ [(i, k, a)]) k' = logOf log k' ++ if k = k' then [(i, k, a)] else [] := by
  unfold logOf
  rw [List.filter_append]
  by_cases h : k = k' <;> simp [h]

theorem step_inv {act : Fin T → α → σ → σ} {cmds : List (List α)} {s0 : σ} {p q : Pool T α σ} (h : Inv act cmds s0 p)
    (hs : Step act p q) : Inv act cmds s0 q := by
  cases hs with
  | take i l r c hp hi =>
    have hsub : ∀ x, x ∈ l ++ r → x ∈ p.pending := by
      intro x hx; rw [hp]; simp at hx ⊢; tauto
    have hnd := h.nodup
    rw [hp] at hnd
    simp only [List.map_append, List.map_cons] at hnd
    have hnd' := List.nodup_middle.mp hnd
    rw [List.nodup_cons] at hnd'
    have hcn : c.1 ∉ (l ++ r).map (·.1) := by simpa using hnd'.1
    refine ⟨h.fold, h.bound, fun x hx => h.pend x (hsub x hx), by simpa using hnd'.2, ?_, ?_, ?_⟩
    · intro j k rest hj
      simp only [Function.update_apply] at hj
      split at hj
      · simp at hj; subst hj
        refine ⟨?_, hcn⟩
        have := h.pend (k, rest) (by rw [hp]; simp)
        by_contra hc
        rw [List.getElem?_eq_none (by omega)] at this; simp at this
      · obtain ⟨h1, h2⟩ := h.run j k rest hj
        refine ⟨h1, fun hk => h2 ?_⟩
        obtain ⟨x, hx, rfl⟩ := List.mem_map.mp hk
        exact List.mem_map.mpr ⟨x, hsub x hx, rfl⟩
    · intro j j' k r1 r2 h1 h2
      have other : ∀ j k r, p.running j = some (k, r) → k ≠ c.1 := by
        intro j k r hj he
        exact (h.run j k r hj).2 (by rw [hp, he]; simp)
      simp only [Function.update_apply] at h1 h2
      split at h1 <;> split at h2
      · simp_all
      · simp at h1; exact absurd (by rw [h1]) (other j' k r2 h2)
      · simp at h2; exact absurd (by rw [h2]) (other j k r1 h1)
      · exact h.runinj j j' k r1 r2 h1 h2
    · intro k c' hk
      cases h.loc k c' hk with
      | waiting hw hl =>
        rw [hp] at hw
        by_cases hc : (k, c') = c
        · exact .on i c' (by simp [← hc]) (by simp only; rw [hl]; rfl) (by simp only; rw [hl]; simp)
        · refine .waiting ?_ hl
          simp at hw ⊢
          tauto
      | on j rest hj hl hji =>
        refine .on j rest ?_ hl hji
        have : j ≠ i := by rintro rfl; rw [hi] at hj; simp at hj
        simp [Function.update_apply, this, hj]
      | done w hl hwi hn hpn =>
        have hkc : c.1 ≠ k := by rintro rfl; exact hpn (by rw [hp]; simp)
        refine .done w hl hwi ?_ ?_
        · intro j r' hj
          simp only [Function.update_apply] at hj
          split at hj
          · simp at hj; exact hkc (by rw [hj])
          · exact hn j r' hj
        · intro hk'
          obtain ⟨x, hx, rfl⟩ := List.mem_map.mp hk'
          exact hpn (List.mem_map.mpr ⟨x, hsub x hx, rfl⟩)
  | act i k a rest hi =>
    have hk := h.run i k (a :: rest) hi
    refine ⟨?_, ?_, h.pend, h.nodup, ?_, ?_, ?_⟩
    · simp [List.foldl_append, h.fold]
    · intro x hx
      simp at hx
      rcases hx with hx | rfl
      · exact h.bound x hx
      · exact hk.1
    · intro j k' r hj
      simp only [Function.update_apply] at hj
      split at hj
      · simp at hj; rw [← hj.1]; exact hk
      · exact h.run j k' r hj
    · intro j j' k' r1 r2 h1 h2
      simp only [Function.update_apply] at h1 h2
      split at h1 <;> split at h2
      · simp_all
      · rename_i e1 e2; simp at h1; rw [e1]; exact h.runinj i j' k' _ _ (by rw [hi, h1.1]) h2
      · rename_i e1 e2; simp at h2; rw [e2]; exact h.runinj j i k' _ _ h1 (by rw [hi, h2.1])
      · exact h.runinj j j' k' r1 r2 h1 h2
    · intro k' c hc
      by_cases hkk : k = k'
      · subst hkk
        cases h.loc k c hc with
        | waiting hw hl => exact absurd (List.mem_map.mpr ⟨_, hw, rfl⟩) hk.2
        | on j rest' hj hl hji =>
          have : j = i := h.runinj j i k _ _ hj hi
          subst this
          rw [hi] at hj; simp at hj; subst hj
          refine .on j rest (by simp) ?_ ?_
          · simp only [logOf_append, if_true]
            rw [← hl]; simp
          · simp only [logOf_append, if_true]
            intro x hx
            simp at hx
            rcases hx with hx | rfl
            · exact hji x hx
            · rfl
        | done w hl hwi hn hpn => exact absurd hi (hn i _)
      · have hlog : logOf (p.log ++ [(i, k, a)]) k' = logOf p.log k' := by
          rw [logOf_append]; simp [hkk]
        cases h.loc k' c hc with
        | waiting hw hl => exact .waiting hw (by simp only; rw [hlog]; exact hl)
        | on j rest' hj hl hji =>
          refine .on j rest' ?_ (by simp only; rw [hlog]; exact hl) (by simp only; rw [hlog]; exact hji)
          have : j ≠ i := by rintro rfl; rw [hi] at hj; simp at hj; exact hkk hj.1
          simp [Function.update_apply, this, hj]
        | done w hl hwi hn hpn =>
          refine .done w (by simp only; rw [hlog]; exact hl) (by simp only; rw [hlog]; exact hwi) ?_ hpn
          intro j r' hj
          simp only [Function.update_apply] at hj
          split at hj
          · simp at hj; exact hkk hj.1
          · exact hn j r' hj
  | finish i k hi =>
    have hk := h.run i k [] hi
    refine ⟨h.fold, h.bound, h.pend, h.nodup, ?_, ?_, ?_⟩
    · intro j k' r hj
      simp only [Function.update_apply] at hj
      split at hj
      · simp at hj
      · exact h.run j k' r hj
    · intro j j' k' r1 r2 h1 h2
      simp only [Function.update_apply] at h1 h2
      split at h1
      · simp at h1
      · split at h2
        · simp at h2
        · exact h.runinj j j' k' r1 r2 h1 h2
    · intro k' c hc
      cases h.loc k' c hc with
      | waiting hw hl => exact .waiting hw hl
      | on j rest' hj hl hji =>
        by_cases hij : j = i
        · subst hij
          rw [hi] at hj; simp at hj
          obtain ⟨rfl, rfl⟩ := hj
          refine .done (some j) (by simpa using hl) (fun x hx => by rw [hji x hx]) ?_ hk.2
          intro j' r' hj'
          simp only [Function.update_apply] at hj'
          split at hj'
          · simp at hj'
          · rename_i hne
            exact hne (h.runinj j' j k r' [] hj' hi)
        · exact .on j rest' (by simp [Function.update_apply, hij, hj]) hl hji
      | done w hl hwi hn hpn =>
        refine .done w hl hwi ?_ hpn
        intro j r' hj
        simp only [Function.update_apply] at hj
        split at hj
        · simp at hj
        · exact hn j r' hj

theorem steps_inv {act : Fin T → α → σ → σ} {cmds : List (List α)} {s0 : σ} {p q : Pool T α σ} (h : Inv act cmds s0 p)
    (hs : Steps act p q) : Inv act cmds s0 q := by
  induction hs with
  | refl => exact h
  | tail _ hs ih => exact step_inv ih hs

/-- When everything has been executed, the log of each command is its action list, from a single thread. -/
theorem done_log {act : Fin T → α → σ → σ} {cmds : List (List α)} {s0 : σ} {p : Pool T α σ} (h : Inv act cmds s0 p)
    (hd : Done p) (k : Nat) (c : List α) (hk : cmds[k]? = some c) :
    (logOf p.log k).map (·.2.2) = c ∧ ∃ i, ∀ x ∈ logOf p.log k, some x.1 = i := by
  cases h.loc k c hk with
  | waiting hw hl => rw [hd.1] at hw; simp at hw
  | on j rest hj hl hji => rw [hd.2 j] at hj; simp at hj
  | done w hl hwi _ _ => exact ⟨hl, w, hwi⟩

/-- A list is a permutation of its parts by key. -/
theorem perm_parts {β : Type} (key : β → Nat) (n : Nat) (l : List β) (h : ∀ x ∈ l, key x < n) :
    l.Perm ((List.range n).flatMap fun k => l.filter fun x => key x = k) := by
  induction n generalizing l with
  | zero =>
    cases l with
    | nil => simp
    | cons x l => exact absurd (h x (by simp)) (by omega)
  | succ n ih =>
    rw [List.range_succ, List.flatMap_append]
    have h1 := List.filter_append_perm (fun x => decide (key x < n)) l
    refine h1.symm.trans (List.Perm.append ?_ ?_)
    · have := ih (l.filter fun x => decide (key x < n)) (by intro x hx; simpa using (List.mem_filter.mp hx).2)
      refine this.trans (List.Perm.of_eq ?_)
      apply List.flatMap_congr
      intro k hk
      rw [List.filter_filter]
      apply List.filter_congr
      intro x _
      simp at hk ⊢
      omega
    · simp only [List.flatMap_cons, List.flatMap_nil, List.append_nil]
      apply List.Perm.of_eq
      apply List.filter_congr
      intro x hx
      have := h x hx
      by_cases hk : key x = n
      · simp [hk]
      · have : key x < n := by omega
        simp [hk, this]

/-- When everything has been executed, the log is a permutation of all actions. -/
theorem done_perm {act : Fin T → α → σ → σ} {cmds : List (List α)} {s0 : σ} {p : Pool T α σ} (h : Inv act cmds s0 p)
    (hd : Done p) : (p.log.map (·.2.2)).Perm cmds.flatten := by
  have h1 := (perm_parts (fun x : Fin T × Nat × α => x.2.1) cmds.length p.log h.bound).map (·.2.2)
  refine h1.trans (List.Perm.of_eq ?_)
  rw [List.map_flatMap, ← List.flatMap_id (L := cmds)]
  conv_rhs => rw [show cmds = (List.range cmds.length).map (fun k => (cmds[k]?).getD []) from by
    apply List.ext_getElem
    · simp
    · intro i h1 h2; simp [List.getElem?_eq_getElem h1]]
  rw [List.flatMap_map]
  apply List.flatMap_congr
  intro k hk
  simp at hk
  have := (done_log h hd k cmds[k] (List.getElem?_eq_getElem hk)).1
  simpa [logOf, List.getElem?_eq_getElem hk] using this

/-! ## Progress -/


theorem progress {act : Fin T → α → σ → σ} (hT : 0 < T) (p : Pool T α σ) (hd : ¬ Done p) : ∃ q, Step act p q := by
  by_cases hr : ∃ i, p.running i ≠ none
  · obtain ⟨i, hi⟩ := hr
    obtain ⟨⟨k, rest⟩, hk⟩ := Option.ne_none_iff_exists'.mp hi
    cases rest with
    | nil => exact ⟨_, .finish p i k hk⟩
    | cons a rest => exact ⟨_, .act p i k a rest hk⟩
  · have hr : ∀ i, p.running i = none := fun i => by_contra fun h => hr ⟨i, h⟩
    have : p.pending ≠ [] := fun h => hd ⟨h, hr⟩
    obtain ⟨c, r, hc⟩ := List.exists_cons_of_ne_nil this
    exact ⟨_, .take p ⟨0, hT⟩ [] r c hc (hr _)⟩

/-- Steps still to do: every waiting command is taken, each action executed, and the command finished. -/
def workLeft (p : Pool T α σ) : Nat :=
  (p.pending.map fun c => c.2.length + 2).sum + ∑ i, ((p.running i).map fun c => c.2.length + 1).getD 0

theorem sum_update (f : Fin T → Option (Nat × List α)) (i : Fin T) (v : Option (Nat × List α)) :
    (∑ j, (((Function.update f i v) j).map fun c => c.2.length + 1).getD 0) + ((f i).map fun c => c.2.length + 1).getD 0 =
      (∑ j, ((f j).map fun c => c.2.length + 1).getD 0) + (v.map fun c => c.2.length + 1).getD 0 := by
  have h1 : (fun j => (((Function.update f i v) j).map fun c => c.2.length + 1).getD 0) =
      Function.update (fun j => ((f j).map fun c => c.2.length + 1).getD 0) i ((v.map fun c => c.2.length + 1).getD 0) := by
    funext j
    by_cases h : j = i
    · subst h; simp
    · simp [h]
  rw [h1, Finset.sum_update_of_mem (Finset.mem_univ i)]
  rw [← Finset.add_sum_erase Finset.univ _ (Finset.mem_univ i)]
  rw [← Finset.sdiff_singleton_eq_erase]
  omega

theorem step_work {act : Fin T → α → σ → σ} {p q : Pool T α σ} (hs : Step act p q) : workLeft p = workLeft q + 1 := by
  cases hs with
  | take i l r c hp hi =>
    have := sum_update p.running i (some c)
    simp only [hi] at this
    simp only [workLeft, hp]
    simp at this ⊢
    omega
  | act i k a rest hi =>
    have := sum_update p.running i (some (k, rest))
    simp only [hi] at this
    simp only [workLeft]
    simp at this ⊢
    omega
  | finish i k hi =>
    have := sum_update p.running i none
    simp only [hi] at this
    simp only [workLeft]
    simp at this ⊢
    omega

/-- Every schedule that keeps running reaches the end. -/
theorem reaches_done {act : Fin T → α → σ → σ} (hT : 0 < T) (p : Pool T α σ) : ∃ q, Steps act p q ∧ Done q := by
  induction hn : workLeft p generalizing p with
  | zero =>
    by_cases hd : Done p
    · exact ⟨p, .refl, hd⟩
    · obtain ⟨q, hq⟩ := progress (act := act) hT p hd
      have := step_work hq; omega
  | succ n ih =>
    by_cases hd : Done p
    · exact ⟨p, .refl, hd⟩
    · obtain ⟨q, hq⟩ := progress (act := act) hT p hd
      have := step_work hq
      obtain ⟨r, hr, hd'⟩ := ih q (by omega)
      exact ⟨r, Relation.ReflTransGen.head hq hr, hd'⟩

end Pool
end OsmIo
