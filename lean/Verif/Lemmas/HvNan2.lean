import Verif.Model.HvNan
import Mathlib.Data.List.GetD
import Mathlib.Data.List.Perm.Basic
import Mathlib.Data.List.Nodup
import Mathlib.Tactic.Ring

/-!
# `hv2d` and `hv_contributions` in memory, for arbitrary doubles
-/

set_option autoImplicit false
set_option linter.unusedSectionVars false

namespace Moo

section
variable {F : Type} [Zero F] [Add F] [Sub F] [Mul F] [LT F] [DecidableLT F] [LE F] [DecidableLE F]

theorem ldBlk_map_some {β : Type} (l : List β) (i : ℕ) (h : i < l.length) : ldBlk (l.map some) i = .ok l[i] := by
  simp [ldBlk, h]

theorem hv2dPtrsM_ok (n : ℕ) : ∀ m ≤ n, hv2dPtrsM (List.range' m (n - m)) ((List.range m).map (fun k => some (2 * k)) ++ List.replicate (n - m) none) =
    .ok ((List.range n).map (fun k => some (2 * k))) := by
  intro m hm
  induction h : n - m generalizing m with
  | zero =>
    have : m = n := by omega
    subst this
    simp [hv2dPtrsM]
  | succ j ih =>
    have hlt : m < n := by omega
    have := ih (m + 1) (by omega) (by omega)
    simp only [List.range'_succ, hv2dPtrsM, stBlk, List.length_append, List.length_map, List.length_range, List.length_replicate]
    rw [if_pos (by omega)]
    simp only [bind, Except.bind]
    rw [← this]
    congr 1
    rw [List.set_append_right _ _ (by simp)]
    simp [List.range_succ, List.replicate_succ]

/-- The rows that the sorted array points to. -/
theorem hv2dSkipM_ok (v : ℕ → ℕ → F) (data : Blk F) (ord : List ℕ) (hdata : ∀ k ∈ ord, ldBlk data (2 * k + 1) = .ok (v k 1)) (prevJ : F) :
    ∀ (fuel j : ℕ), ord.length < j + fuel → j ≤ ord.length →
      ∃ j', j ≤ j' ∧ j' ≤ ord.length ∧ hv2dSkipM data (ord.map (fun k => some (2 * k))) ord.length prevJ fuel j = .ok j' ∧
        (∀ k ∈ (ord.drop j).take (j' - j), v k 1 ≥ prevJ) ∧ (∀ h : j' < ord.length, ¬ v ord[j'] 1 ≥ prevJ) := by
  intro fuel
  induction fuel with
  | zero => intro j h1 h2; omega
  | succ fuel ih =>
    intro j h1 h2
    by_cases hj : j < ord.length
    · have hl : ldBlk (ord.map (fun k => some (2 * k))) j = .ok (2 * ord[j]) := by simp [ldBlk, hj]
      have hy := hdata ord[j] (by simp)
      by_cases hge : v ord[j] 1 ≥ prevJ
      · obtain ⟨j', a1, a2, a3, a4, a5⟩ := ih (j + 1) (by omega) (by omega)
        refine ⟨j', by omega, a2, ?_, ?_, a5⟩
        · simp only [hv2dSkipM, hj, if_true, hl, hy, bind, Except.bind, hge, a3]
        · intro k hk
          rw [List.drop_eq_getElem_cons hj, show j' - j = (j' - (j + 1)) + 1 by omega, List.take_succ_cons] at hk
          rcases List.mem_cons.1 hk with h | h
          · subst h; exact hge
          · exact a4 k h
      · refine ⟨j, le_rfl, h2, ?_, by simp, fun _ => hge⟩
        simp only [hv2dSkipM, hj, if_true, hl, hy, bind, Except.bind, hge, if_false]
    · exact ⟨j, le_rfl, h2, by simp [hv2dSkipM, hj], by simp, fun h => absurd h hj⟩

theorem hv2dLoop_skip (v : ℕ → ℕ → F) (r : ℕ → F) (l l2 : List ℕ) (prevJ hv : F) (h : ∀ k ∈ l, v k 1 ≥ prevJ) :
    hv2dLoop v r false (l ++ l2) prevJ hv = hv2dLoop v r false l2 prevJ hv := by
  induction l with
  | nil => rfl
  | cons a l ih =>
    rw [List.cons_append, hv2dLoop, if_neg (by simp), if_pos (h a (by simp))]
    exact ih (fun k hk => h k (by simp [hk]))

theorem hv2dLoopM_ok (v : ℕ → ℕ → F) (r : ℕ → F) (data ref : Blk F) (ord : List ℕ)
    (hdata : ∀ k ∈ ord, ldBlk data (2 * k) = .ok (v k 0) ∧ ldBlk data (2 * k + 1) = .ok (v k 1)) (hr : ldBlk ref 0 = .ok (r 0)) :
    ∀ (fuel j : ℕ) (prevJ hv : F), ord.length < j + fuel → j ≤ ord.length →
      hv2dLoopM data (ord.map (fun k => some (2 * k))) ord.length ref fuel j prevJ hv = .ok (hv2dLoop v r false (ord.drop j) prevJ hv) := by
  intro fuel
  induction fuel with
  | zero => intro j _ _ h1 h2; omega
  | succ fuel ih =>
    intro j prevJ hv h1 h2
    obtain ⟨j', a1, a2, a3, a4, a5⟩ := hv2dSkipM_ok v data ord (fun k hk => (hdata k hk).2) prevJ (ord.length + 1) j (by omega) h2
    have hsplit : ord.drop j = (ord.drop j).take (j' - j) ++ ord.drop j' := by
      conv_lhs => rw [← List.take_append_drop (j' - j) (ord.drop j)]
      rw [List.drop_drop, show j + (j' - j) = j' by omega]
    rw [hsplit, hv2dLoop_skip v r _ _ prevJ hv a4]
    simp only [hv2dLoopM, a3, bind, Except.bind]
    by_cases hj : j' = ord.length
    · subst hj
      simp [hv2dLoop]
    · have hj' : j' < ord.length := by omega
      have hl : ldBlk (ord.map (fun k => some (2 * k))) j' = .ok (2 * ord[j']) := by simp [ldBlk, hj']
      have hy := hdata ord[j'] (by simp)
      simp only [hj, if_false, hl, hy.1, hy.2, hr]
      rw [List.drop_eq_getElem_cons hj', hv2dLoop]
      simp only [Bool.false_eq_true, false_and, if_false, a5 hj']
      by_cases hge : v ord[j'] 0 ≥ r 0
      · simp [hge]
      · simp only [hge, if_false]
        by_cases hn : j' + 1 < ord.length
        · have hl' : ldBlk (ord.map (fun k => some (2 * k))) (j' + 1) = .ok (2 * ord[j' + 1]) := by simp [ldBlk, hn]
          have hy' := hdata ord[j' + 1] (by simp)
          simp only [hn, if_true, hl', hy'.1]
          by_cases hlt : v ord[j' + 1] 0 < r 0
          · simp only [hlt, if_true]
            rw [ih (j' + 1) _ _ (by omega) (by omega), List.drop_eq_getElem_cons hn]
            simp [hv2dLoop, hlt]
          · simp only [hlt, if_false]
            rw [List.drop_eq_getElem_cons hn]
            simp [hv2dLoop, hlt]
        · simp only [hn, if_false]
          rw [List.drop_eq_nil_of_le (by omega)]
          simp [hv2dLoop]

/-! ## `hv_contributions` -/

/-- The block of points with row `i` replaced by the reference point. -/
def rowReplaced (l ref : List F) (dim i : ℕ) : List F := l.take (i * dim) ++ ref ++ l.drop (i * dim + dim)

theorem onePointLoopM_ok (hv : Blk F → Except MemErr F) (w : ℕ → F) (dim size : ℕ) (ref l : List F) (hlen : l.length = size * dim) (href : ref.length = dim)
    (uev : Option (List Bool)) (huev : ∀ u ∈ uev, u.length = size)
    (hhv : ∀ i < size, (∀ u ∈ uev, u[i]? = some false) → hv ((rowReplaced l ref dim i).map some) = .ok (w i)) :
    ∀ (m : ℕ), m ≤ size → ∀ (tmp hvc : Blk F), tmp.length = dim → hvc.length = size →
      (∀ i < size - m, hvc[i]? = some (some (if ∃ u ∈ uev, u[i]? = some true then 0 else w i))) →
      onePointLoopM hv dim (ref.map some) (uev.map (List.map some)) (List.range' (size - m) m) tmp hvc (l.map some) =
        .ok ((List.range size).map (fun i => some (if ∃ u ∈ uev, u[i]? = some true then 0 else w i)), l.map some) := by
  intro m
  induction m with
  | zero =>
    intro _ tmp hvc _ hc hinv
    simp only [List.range'_zero, onePointLoopM]
    congr 2
    apply List.ext_getElem?
    intro i
    by_cases hi : i < size
    · rw [hinv i (by omega)]; simp [hi]
    · rw [List.getElem?_eq_none (by omega), List.getElem?_eq_none (by simp; omega)]
  | succ m ih =>
    intro hm tmp hvc ht hc hinv
    set i := size - (m + 1) with hi
    have his : i < size := by omega
    have hle : i * dim + dim ≤ size * dim := by
      calc i * dim + dim = (i + 1) * dim := by ring
        _ ≤ size * dim := Nat.mul_le_mul_right _ (by omega)
    rw [List.range'_succ]
    have c1 : cpAtBlk tmp 0 (l.map some) (i * dim) dim = .ok (((l.drop (i * dim)).take dim).map some) := by
      rw [cpAtBlk, if_pos (by simp; omega)]
      congr 1
      rw [show tmp.drop (0 + dim) = [] from List.drop_eq_nil_of_le (by omega)]
      simp [List.map_take, List.map_drop]
    have c2 : cpAtBlk (l.map some) (i * dim) (ref.map some) 0 dim = .ok ((rowReplaced l ref dim i).map some) := by
      rw [cpAtBlk, if_pos (by simp; omega)]
      congr 1
      rw [List.drop_zero, List.take_of_length_le (l := ref.map some) (by simp; omega)]
      simp [rowReplaced, List.map_take, List.map_drop]
    have c3 : cpAtBlk ((rowReplaced l ref dim i).map some) (i * dim) (((l.drop (i * dim)).take dim).map some) 0 dim = .ok (l.map some) := by
      have hlr : (rowReplaced l ref dim i).length = size * dim := by simp [rowReplaced]; omega
      rw [cpAtBlk, if_pos (by simp; omega)]
      congr 1
      rw [List.drop_zero, List.take_of_length_le (l := ((l.drop (i * dim)).take dim).map some) (by simp), ← List.map_take, ← List.map_drop, ← List.map_append, ← List.map_append]
      congr 1
      have t1 : (rowReplaced l ref dim i).take (i * dim) = l.take (i * dim) := by
        rw [rowReplaced, List.append_assoc, List.take_append_of_le_length (by simp; omega), List.take_of_length_le (by simp)]
      have t2 : (rowReplaced l ref dim i).drop (i * dim + dim) = l.drop (i * dim + dim) := by
        rw [rowReplaced, List.drop_append, List.drop_eq_nil_of_le (by simp; omega)]
        simp; omega
      rw [t1, t2, List.append_assoc]
      conv_rhs => rw [← List.take_append_drop (i * dim) l, ← List.take_append_drop dim (l.drop (i * dim)), List.drop_drop]
    have key : onePointValueM hv (uev.map (List.map some)) i ((rowReplaced l ref dim i).map some) =
        .ok (if ∃ u ∈ uev, u[i]? = some true then (0 : F) else w i) := by
      cases uev with
      | none => simp [onePointValueM, hhv i his (by simp)]
      | some u =>
        have hu := huev u rfl
        have hl : ldBlk (u.map some) i = .ok u[i] := by simp [ldBlk, hu, his]
        by_cases hb : u[i] = true
        · simp [onePointValueM, hl, bind, Except.bind, hb, hu, his]
        · have hb' : u[i] = false := by simpa using hb
          have := hhv i his (by simp [hu, his, hb'])
          simp [onePointValueM, hl, bind, Except.bind, hb', hu, his, this]
    simp only [onePointLoopM, c1, c2, bind, Except.bind, key]
    rw [stBlk, if_pos (by omega)]
    dsimp only
    rw [c3]
    dsimp only
    have hnext : i + 1 = size - m := by omega
    rw [hnext]
    apply ih (by omega) _ _ (by simp; omega) (by simp [hc])
    intro j hj
    rw [List.getElem?_set]
    by_cases hji : i = j
    · subst hji; simp [hc, his]
    · rw [if_neg hji]; exact hinv j (by omega)

/-- What `hv_contributions` stores for a difference `c`. -/
def clipped (fabs : F → F) (tol c : F) : F := if fabs c ≥ tol then c else 0

theorem contribLoopM_ok (fabs : F → F) (tol total : F) (w : ℕ → F) (size : ℕ) : ∀ (m : ℕ), m ≤ size → ∀ hvc : Blk F, hvc.length = size →
    (∀ i < size, hvc[i]? = some (some (if i < size - m then clipped fabs tol (total - w i) else w i))) →
    contribLoopM fabs tol total (List.range' (size - m) m) hvc =
      if ∀ i, size - m ≤ i → i < size → clipped fabs tol (total - w i) ≥ 0 then .ok ((List.range size).map (fun i => some (clipped fabs tol (total - w i))))
      else .error .assertion := by
  intro m
  induction m with
  | zero =>
    intro _ hvc hc hinv
    rw [if_pos (by omega)]
    simp only [List.range'_zero, contribLoopM]
    congr 1
    apply List.ext_getElem?
    intro i
    by_cases hi : i < size
    · rw [hinv i hi]; simp [hi]
    · rw [List.getElem?_eq_none (by omega), List.getElem?_eq_none (by simp; omega)]
  | succ m ih =>
    intro hm hvc hc hinv
    set i := size - (m + 1) with hi
    have his : i < size := by omega
    have h0 := hinv i his
    rw [if_neg (by omega)] at h0
    rw [List.range'_succ]
    have hn : i + 1 = size - m := by omega
    by_cases hge : clipped fabs tol (total - w i) ≥ 0
    · have := ih (by omega) ((hvc.set i (some (total - w i))).set i (some (clipped fabs tol (total - w i)))) (by simp [hc]) (by
        intro j hj
        rw [List.getElem?_set, List.getElem?_set]
        by_cases hji : i = j
        · subst hji; rw [if_pos rfl]; simp [hc, his]; omega
        · rw [if_neg hji, if_neg hji, hinv j hj]
          congr 2
          by_cases h1 : j < i
          · rw [if_pos h1, if_pos (by omega)]
          · rw [if_neg h1, if_neg (by omega)])
      rw [← hn] at this
      simp only [contribLoopM, ldBlk, h0, bind, Except.bind, stBlk, hc, his, if_true, List.length_set, List.getElem?_set]
      change (if clipped fabs tol (total - w i) ≥ 0 then _ else _) = _
      rw [if_pos hge]
      refine Eq.trans this ?_
      congr 1
      apply propext
      constructor
      · intro h j h1 h2
        rcases Nat.eq_or_lt_of_le h1 with h3 | h3
        · subst h3; exact hge
        · exact h j (by omega) h2
      · intro h j h1 h2; exact h j (by omega) h2
    · rw [if_neg (fun h => hge (h i le_rfl his))]
      simp only [contribLoopM, ldBlk, h0, bind, Except.bind, stBlk, hc, his, if_true, List.length_set, List.getElem?_set]
      change (if clipped fabs tol (total - w i) ≥ 0 then _ else _) = _
      rw [if_neg hge]

end

end Moo
