import Verif.Lemmas.IndNan
import Verif.Props.Epsilon
import Verif.Props.Igd

set_option autoImplicit false
set_option linter.unusedSectionVars false

/-!
# NaN and infinities in the epsilon indicators, GD, IGD, IGD+ and the averaged Hausdorff distance

A double is NaN (`none`), an infinity (`some ⊤`, `some ⊥`) or a finite value (`some (fin x)`).
-/

namespace Moo

attribute [local simp] fin_ne_top fin_ne_bot

section
variable {K : Type} [Field K] [LinearOrder K] [IsStrictOrderedRing K]

/-- A table of finite values. -/
def asDbl (A : ℕ → ℕ → K) : ℕ → ℕ → Dbl K := fun i d => some (fin (A i d))

/-- A finite value or NaN. -/
def FinOrNan (x : Dbl K) : Prop := x = none ∨ ∃ v : K, x = some (fin v)

/-- An infinitely good value of an objective. -/
def goodVal (mx : ℕ → Bool) (d : ℕ) : Dbl K := some (if mx d then ⊤ else ⊥)

/-- An infinitely bad value of an objective. -/
def badVal (mx : ℕ → Bool) (d : ℕ) : Dbl K := some (if mx d then ⊥ else ⊤)

/-- The rows from row `k` on. -/
def rowsFrom (k : ℕ) (A : ℕ → ℕ → Dbl K) : ℕ → ℕ → Dbl K := fun i => A (k + i)

theorem epsAddMaxN_asDbl (dim : ℕ) (minmax : ℕ → ℤ) (pa pb : ℕ → K) :
    epsAddMaxN dim minmax (fun d => some (fin (pa d))) (fun d => some (fin (pb d))) = some (epsAddMax dim minmax pa pb) := by
  unfold epsAddMaxN epsAddMax
  induction dim with
  | zero => rfl
  | succ n ih =>
    rw [List.range_succ, List.foldl_append, List.foldl_append, ih, List.foldl_cons, List.foldl_cons, List.foldl_nil, List.foldl_nil]
    have : epsAddTempN (minmax n) (some (fin (pa n))) (some (fin (pb n))) = some (fin (epsAddTemp (minmax n) (pa n) (pb n))) := by
      unfold epsAddTempN epsAddTemp; split_ifs <;> simp
    rw [this, nanMax_some]

/-- **C105 (additive epsilon, finite data).** Without NaN and infinities the result is that of C17. -/
theorem C105_additive_finite (A R : ℕ → ℕ → K) (nobj nA nR : ℕ) (mx : ℕ → Bool) :
    epsilonAdditiveN (asDbl A) nobj nA (asDbl R) nR mx = some (epsilonAdditive A nobj nA R nR mx) := by
  have hmin : ∀ pb : ℕ → K, epsAddMinN nobj (minmaxFromBool mx) (asDbl A) nA (fun d => some (fin (pb d))) =
      some (epsAddMin nobj (minmaxFromBool mx) A nA pb) := by
    intro pb
    unfold epsAddMinN epsAddMin asDbl
    induction nA with
    | zero => rfl
    | succ n ih =>
      rw [List.range_succ, List.foldl_append, List.foldl_append, ih, List.foldl_cons, List.foldl_cons, List.foldl_nil, List.foldl_nil,
        epsAddMaxN_asDbl, nanMin_some]
  unfold epsilonAdditiveN epsilonAdditive epsilonAdditiveMinmaxN epsilonAdditiveMinmax
  induction nR with
  | zero => rfl
  | succ n ih =>
    rw [List.range_succ, List.foldl_append, List.foldl_append, ih, List.foldl_cons, List.foldl_cons, List.foldl_nil, List.foldl_nil]
    have := hmin (R n)
    rw [show asDbl R n = (fun d => some (fin (R n d))) from rfl, this, nanMax_some]

theorem epsAddMaxN_succ_none (n : ℕ) (minmax : ℕ → ℤ) (pa pb : ℕ → Dbl K) :
    epsAddMaxN (n + 1) minmax pa pb = none ↔ epsAddTempN (minmax n) (pa n) (pb n) = none := by
  unfold epsAddMaxN
  rw [List.range_succ, List.foldl_append, List.foldl_cons, List.foldl_nil, nanMax_eq_none]

theorem epsAddMinN_succ_none (dim n : ℕ) (minmax : ℕ → ℤ) (A : ℕ → ℕ → Dbl K) (pb : ℕ → Dbl K) :
    epsAddMinN dim minmax A (n + 1) pb = none ↔ epsAddMaxN dim minmax (A n) pb = none := by
  unfold epsAddMinN
  rw [List.range_succ, List.foldl_append, List.foldl_cons, List.foldl_nil, nanMin_eq_none]

/-- **C105 (additive epsilon).** The result is NaN exactly when the difference in the last objective of the last point of `A` and the last point of
`R` is NaN, whatever all the other values are. -/
theorem C105_additive_nan_iff (A R : ℕ → ℕ → Dbl K) (nobj nA nR : ℕ) (mx : ℕ → Bool) :
    epsilonAdditiveN A (nobj + 1) (nA + 1) R (nR + 1) mx = none ↔ dblSub (A nA nobj) (R nR nobj) = none := by
  have hsym : dblSub (R nR nobj) (A nA nobj) = none ↔ dblSub (A nA nobj) (R nR nobj) = none := by
    cases A nA nobj with
    | none => simp
    | some a =>
      cases R nR nobj with
      | none => simp
      | some r =>
        simp only [dblSub, extSub]
        rcases ext_cases a with rfl | rfl | ⟨x, rfl⟩ <;> rcases ext_cases r with rfl | rfl | ⟨y, rfl⟩ <;> simp
  unfold epsilonAdditiveN epsilonAdditiveMinmaxN
  rw [List.range_succ, List.foldl_append, List.foldl_cons, List.foldl_nil, nanMax_eq_none, epsAddMinN_succ_none, epsAddMaxN_succ_none,
    epsAddTempN_eq]
  cases mx nobj
  · simp
  · simpa using hsym

/-- **C105 (additive epsilon).** The same in terms of the values: the result is NaN exactly if the last value of the last point of one of the sets is NaN, or both are the same infinity. -/
theorem C105_additive_nan_cases (A R : ℕ → ℕ → Dbl K) (nobj nA nR : ℕ) (mx : ℕ → Bool) :
    epsilonAdditiveN A (nobj + 1) (nA + 1) R (nR + 1) mx = none ↔
      A nA nobj = none ∨ R nR nobj = none ∨ (A nA nobj = some ⊤ ∧ R nR nobj = some ⊤) ∨ (A nA nobj = some ⊥ ∧ R nR nobj = some ⊥) := by
  rw [C105_additive_nan_iff]
  cases A nA nobj with
  | none => simp [dblSub]
  | some a =>
    cases R nR nobj with
    | none => simp [dblSub]
    | some r =>
      simp only [dblSub, extSub]
      rcases ext_cases a with rfl | rfl | ⟨x, rfl⟩ <;> rcases ext_cases r with rfl | rfl | ⟨y, rfl⟩ <;> simp

/-- **C105 (additive epsilon).** A NaN in the last objective of a point of `A` that is not its last point: that point and all the points before it
are ignored. -/
theorem C105_additive_nan_point (A R : ℕ → ℕ → Dbl K) (nobj nA nR : ℕ) (mx : ℕ → Bool) (a : ℕ) (ha : a + 1 < nA)
    (hn : A a nobj = none) :
    epsilonAdditiveN A (nobj + 1) nA R nR mx = epsilonAdditiveN (rowsFrom (a + 1) A) (nobj + 1) (nA - (a + 1)) R nR mx := by
  unfold epsilonAdditiveN epsilonAdditiveMinmaxN
  refine foldRange_congr nanMax _ _ nR _ fun b _ => ?_
  have hz : epsAddMaxN (nobj + 1) (minmaxFromBool mx) (A a) (R b) = none := by
    rw [epsAddMaxN_succ_none, epsAddTempN_eq, hn]; split_ifs <;> simp
  unfold epsAddMinN
  exact foldRange_reset nanMin _ a nA _ ha (fun m => by rw [hz]; simp) (by rw [hz]; simp [nanMin_top])

/-- **C105 (additive epsilon).** The same for a point of the reference set. -/
theorem C105_additive_nan_reference (A R : ℕ → ℕ → Dbl K) (nobj nA nR : ℕ) (mx : ℕ → Bool) (r : ℕ) (hr : r + 1 < nR) (hA : 0 < nA)
    (hn : R r nobj = none) :
    epsilonAdditiveN A (nobj + 1) nA R nR mx = epsilonAdditiveN A (nobj + 1) nA (rowsFrom (r + 1) R) (nR - (r + 1)) mx := by
  obtain ⟨n, rfl⟩ : ∃ n, nA = n + 1 := ⟨nA - 1, by omega⟩
  have hz : epsAddMinN (nobj + 1) (minmaxFromBool mx) A (n + 1) (R r) = none := by
    rw [epsAddMinN_succ_none, epsAddMaxN_succ_none, epsAddTempN_eq, hn]; split_ifs <;> simp
  unfold epsilonAdditiveN epsilonAdditiveMinmaxN
  exact foldRange_reset nanMax _ r nR _ hr (fun m => by rw [hz]; simp) (by rw [hz]; simp [nanMax_bot])

/-- **C105 (additive epsilon).** A NaN in another objective `d` of a point of `A`: in that objective and in all the objectives before it the point
counts as infinitely good. -/
theorem C105_additive_nan_objective (A R : ℕ → ℕ → Dbl K) (nobj nA nR : ℕ) (mx : ℕ → Bool) (a d : ℕ) (hd : d + 1 < nobj)
    (hn : A a d = none) (hR : ∀ r < nR, ∀ e ≤ d, ∃ v : K, R r e = some (fin v)) :
    epsilonAdditiveN A nobj nA R nR mx =
      epsilonAdditiveN (fun i e => if i = a ∧ e ≤ d then goodVal mx e else A i e) nobj nA R nR mx := by
  unfold epsilonAdditiveN epsilonAdditiveMinmaxN
  refine foldRange_congr nanMax _ _ nR _ fun b hb => ?_
  unfold epsAddMinN
  refine foldRange_congr nanMin _ _ nA _ fun i _ => ?_
  by_cases hi : i = a
  swap
  · simp [hi]
  subst hi
  simp only [true_and]
  unfold epsAddMaxN
  have hz : epsAddTempN (minmaxFromBool mx d) (A i d) (R b d) = none := by rw [epsAddTempN_eq, hn]; split_ifs <;> simp
  rw [foldRange_reset nanMax (fun d => epsAddTempN (minmaxFromBool mx d) (A i d) (R b d)) d nobj _ hd (fun m => by rw [hz]; simp)
    (by rw [hz]; simp [nanMax_bot])]
  rw [foldRange_split nanMax (fun e => epsAddTempN (minmaxFromBool mx e) (if e ≤ d then goodVal mx e else A i e) (R b e)) (d + 1) nobj _
    (by omega)]
  have h0 : (List.range (d + 1)).foldl (fun m e => nanMax m (epsAddTempN (minmaxFromBool mx e)
      (if e ≤ d then goodVal mx e else A i e) (R b e))) (some ⊥ : Dbl K) = some ⊥ := by
    refine foldRange_inv nanMax (fun m => m = some ⊥) _ (d + 1) _ rfl fun e he m hm => ?_
    obtain ⟨v, hv⟩ := hR b hb e (by omega)
    rw [hm, nanMax_bot, if_pos (by omega : e ≤ d), epsAddTempN_eq, hv]
    unfold goodVal
    cases mx e <;> simp [dblSub, extSub]
  rw [h0]
  refine foldRange_congr nanMax _ _ _ _ fun e _ => ?_
  rw [if_neg (by omega)]

/-! ### Multiplicative epsilon -/

/-- **C105 (multiplicative epsilon).** The call ends with an error exactly when a value that is not NaN is at most 0: a NaN gives no error. -/
theorem C105_mult_error_iff (A R : ℕ → ℕ → Dbl K) (nobj nA nR : ℕ) (mx : ℕ → Bool) (hA : 0 < nA) (hR : 0 < nR) :
    epsilonMultN A nobj nA R nR mx = none ↔
      (∃ a < nA, ∃ d < nobj, NonPos (A a d)) ∨ (∃ r < nR, ∃ d < nobj, NonPos (R r d)) := by
  unfold epsilonMultN
  constructor
  · intro h
    by_contra hc
    push Not at hc
    rw [epsMultOuterN_ok nobj _ A nA R (List.range nR) _ (fun b hb => hc.2 b (List.mem_range.1 hb)) hc.1] at h
    cases h
  · rintro (⟨a, ha, d, hd, h⟩ | ⟨r, hr, d, hd, h⟩)
    · exact epsMultOuterN_bad nobj _ A nA R _ _ ⟨0, List.mem_range.2 hR, a, ha, d, hd, Or.inl h⟩
    · exact epsMultOuterN_bad nobj _ A nA R _ _ ⟨r, List.mem_range.2 hr, 0, hA, d, hd, Or.inr h⟩

/-- Every value is NaN or greater than 0. -/
def PosTable (nobj n : ℕ) (A : ℕ → ℕ → Dbl K) : Prop := ∀ a < n, ∀ d < nobj, ¬ NonPos (A a d)

theorem epsilonMultN_eq {A R : ℕ → ℕ → Dbl K} {nobj nA nR : ℕ} (mx : ℕ → Bool) (hA : PosTable nobj nA A) (hR : PosTable nobj nR R) :
    epsilonMultN A nobj nA R nR mx = some (mulEps nobj (minmaxFromBool mx) A nA R nR) := by
  unfold epsilonMultN
  rw [epsMultOuterN_ok nobj _ A nA R (List.range nR) _ (fun b hb => hR b (List.mem_range.1 hb)) hA]
  rfl

theorem mulMax_succ_none (n : ℕ) (minmax : ℕ → ℤ) (pa pb : ℕ → Dbl K) :
    mulMax (n + 1) minmax pa pb = none ↔ epsMultTempN (minmax n) (pa n) (pb n) = none := by
  unfold mulMax
  rw [List.range_succ, List.foldl_append, List.foldl_cons, List.foldl_nil, nanMax_eq_none]

theorem mulMin_succ_none (dim n : ℕ) (minmax : ℕ → ℤ) (A : ℕ → ℕ → Dbl K) (pb : ℕ → Dbl K) :
    mulMin dim minmax A (n + 1) pb = none ↔ mulMax dim minmax (A n) pb = none := by
  unfold mulMin
  rw [List.range_succ, List.foldl_append, List.foldl_cons, List.foldl_nil, nanMin_eq_none]

/-- **C105 (multiplicative epsilon).** The result is NaN exactly when the quotient in the last objective of the two last points is NaN. -/
theorem C105_mult_nan_iff (A R : ℕ → ℕ → Dbl K) (nobj nA nR : ℕ) (mx : ℕ → Bool) (hA : PosTable (nobj + 1) (nA + 1) A)
    (hR : PosTable (nobj + 1) (nR + 1) R) :
    epsilonMultN A (nobj + 1) (nA + 1) R (nR + 1) mx = some none ↔
      A nA nobj = none ∨ R nR nobj = none ∨ (A nA nobj = some ⊤ ∧ R nR nobj = some ⊤) := by
  have hdiv : ∀ x y : Dbl K, ¬ NonPos x → ¬ NonPos y → (dblDiv x y = none ↔ x = none ∨ y = none ∨ (x = some ⊤ ∧ y = some ⊤)) := by
    intro x y hx hy
    cases x with
    | none => simp
    | some x =>
      cases y with
      | none => simp
      | some y =>
        simp only [dblDiv, extDiv]
        rcases pos_of_not hx with rfl | ⟨u, rfl, _⟩ <;> rcases pos_of_not hy with rfl | ⟨w, rfl, _⟩ <;> simp
  rw [epsilonMultN_eq mx hA hR]
  unfold mulEps
  rw [Option.some_inj, List.range_succ, List.foldl_append, List.foldl_cons, List.foldl_nil, nanMax_eq_none, mulMin_succ_none,
    mulMax_succ_none, epsMultTempN_eq]
  have h1 := hA nA (by omega) nobj (by omega)
  have h2 := hR nR (by omega) nobj (by omega)
  cases mx nobj
  · simpa using hdiv _ _ h1 h2
  · simp only [if_true]
    rw [hdiv _ _ h2 h1]
    tauto

/-- **C105 (multiplicative epsilon).** A NaN in the last objective of a point of `A` that is not its last point: that point and all the points
before it are ignored. -/
theorem C105_mult_nan_point (A R : ℕ → ℕ → Dbl K) (nobj nA nR : ℕ) (mx : ℕ → Bool) (a : ℕ) (ha : a + 1 < nA)
    (hA : PosTable (nobj + 1) nA A) (hR : PosTable (nobj + 1) nR R) (hn : A a nobj = none) :
    epsilonMultN A (nobj + 1) nA R nR mx = epsilonMultN (rowsFrom (a + 1) A) (nobj + 1) (nA - (a + 1)) R nR mx := by
  have hA' : PosTable (nobj + 1) (nA - (a + 1)) (rowsFrom (a + 1) A) := fun i hi d hd => hA (a + 1 + i) (by omega) d hd
  rw [epsilonMultN_eq mx hA hR, epsilonMultN_eq mx hA' hR]
  congr 1
  unfold mulEps
  refine foldRange_congr nanMax _ _ nR _ fun b _ => ?_
  have hz : mulMax (nobj + 1) (minmaxFromBool mx) (A a) (R b) = none := by
    rw [mulMax_succ_none, epsMultTempN_eq, hn]; split_ifs <;> simp
  unfold mulMin
  exact foldRange_reset nanMin _ a nA _ ha (fun m => by rw [hz]; simp) (by rw [hz]; simp [nanMin_top])

/-- **C105 (multiplicative epsilon).** The same for a point of the reference set. -/
theorem C105_mult_nan_reference (A R : ℕ → ℕ → Dbl K) (nobj nA nR : ℕ) (mx : ℕ → Bool) (r : ℕ) (hr : r + 1 < nR) (h0 : 0 < nA)
    (hA : PosTable (nobj + 1) nA A) (hR : PosTable (nobj + 1) nR R) (hn : R r nobj = none) :
    epsilonMultN A (nobj + 1) nA R nR mx = epsilonMultN A (nobj + 1) nA (rowsFrom (r + 1) R) (nR - (r + 1)) mx := by
  have hR' : PosTable (nobj + 1) (nR - (r + 1)) (rowsFrom (r + 1) R) := fun i hi d hd => hR (r + 1 + i) (by omega) d hd
  rw [epsilonMultN_eq mx hA hR, epsilonMultN_eq mx hA hR']
  congr 1
  obtain ⟨n, rfl⟩ : ∃ n, nA = n + 1 := ⟨nA - 1, by omega⟩
  have hz : mulMin (nobj + 1) (minmaxFromBool mx) A (n + 1) (R r) = none := by
    rw [mulMin_succ_none, mulMax_succ_none, epsMultTempN_eq, hn]; split_ifs <;> simp
  unfold mulEps
  exact foldRange_reset nanMax _ r nR _ hr (fun m => by rw [hz]; simp)
    (by rw [hz, nanMax_none_left, nanMax_zero (mulMin_nn hA (hR (r + 1) hr))])

end

/-! ### The distances -/

theorem gdDiffN_fin (plus : Bool) (dir : ℤ) (a r : ℝ) :
    gdDiffN plus dir (some (fin a)) (some (fin r)) = some (fin (gdDiff plus dir a r)) := by
  unfold gdDiffN gdDiff
  have hmax : ∀ x : ℝ, nanMax (some (fin x : Ext ℝ)) (some (fin 0)) = some (fin (cMax x 0)) := by
    intro x
    rw [nanMax_some]
    unfold cMax
    by_cases h : 0 < x
    · rw [if_pos (fin_lt_fin.2 h), if_pos h]
    · rw [if_neg (fun h' => h (fin_lt_fin.1 h')), if_neg h]
  cases plus
  · simp
  · simp only [Bool.not_true, Bool.false_eq_true, if_false]
    split_ifs <;> simp [hmax]

theorem gdDistN_asDbl (dim : ℕ) (minmax : ℕ → ℤ) (plus : Bool) (pa pr : ℕ → ℝ) :
    gdDistN dim minmax plus (fun d => some (fin (pa d))) (fun d => some (fin (pr d))) =
      some ((gdDist dim minmax plus pa pr : ℝ) : WithTop ℝ) := by
  unfold gdDistN gdDist
  induction dim with
  | zero => rfl
  | succ n ih =>
    rw [List.range_succ, List.foldl_append, List.foldl_append, ih, List.foldl_cons, List.foldl_cons, List.foldl_nil, List.foldl_nil]
    split_ifs
    · rfl
    · rw [gdDiffN_fin, dblSq_fin, dblAdd_some, WithTop.coe_add]

theorem gdMinN_asDbl (dim : ℕ) (minmax : ℕ → ℤ) (plus : Bool) (pa : ℕ → ℝ) (R : ℕ → ℕ → ℝ) (nR : ℕ) :
    gdMinN dim minmax plus (fun d => some (fin (pa d))) (asDbl R) nR = some (gdMin dim minmax plus pa R nR) := by
  rw [gdMinN_eq]
  unfold gdMin
  induction nR with
  | zero => rfl
  | succ n ih =>
    rw [List.range_succ, List.foldl_append, List.foldl_append, ih, List.foldl_cons, List.foldl_cons, List.foldl_nil, List.foldl_nil,
      show asDbl R n = (fun d => some (fin (R n d))) from rfl, gdDistN_asDbl]
    unfold minStepN ieeeCmp
    split_ifs <;> simp_all

/-- **C105 (distances, finite data).** Without NaN and infinities the results are those of C20 and C21. -/
theorem C105_distance_finite (A R : ℕ → ℕ → ℝ) (nobj nA nR p : ℕ) (mx : ℕ → Bool) :
    gdN (asDbl A) nobj nA (asDbl R) nR mx = some (gdMinmax nobj (minmaxFromBool mx) A nA R nR) ∧
    igdN (asDbl A) nobj nA (asDbl R) nR mx = some (igd A nobj nA R nR mx) ∧
    igdPlusN (asDbl A) nobj nA (asDbl R) nR mx = some (igdPlus A nobj nA R nR mx) ∧
    avgHausdorffDistN (asDbl A) nobj nA (asDbl R) nR mx p = some (avgHausdorffDist A nobj nA R nR mx p) := by
  have key : ∀ (A R : ℕ → ℕ → ℝ) (nA nR : ℕ) (plus psize : Bool) (p : ℕ),
      gdCommonN nobj (minmaxFromBool mx) (asDbl A) nA (asDbl R) nR plus psize p =
        some (gdCommon nobj (minmaxFromBool mx) A nA R nR plus psize p) := by
    intro A R nA nR plus psize p
    have hs : ∀ n, gdSumN nobj (minmaxFromBool mx) (asDbl A) (asDbl R) nR plus p n = some ((List.range n).foldl (fun gd a =>
        let md := (gdMin nobj (minmaxFromBool mx) plus (A a) R nR).map Real.sqrt
        gd + (if p = 1 then md else md.map (fun x => x ^ p))) (0 : WithTop ℝ)) := by
      intro n
      induction n with
      | zero => rfl
      | succ n ih =>
        rw [gdSumN_succ, ih, List.range_succ, List.foldl_append, List.foldl_cons, List.foldl_nil,
          show asDbl A n = (fun d => some (fin (A n d))) from rfl, gdMinN_asDbl]
        split_ifs <;> rfl
    rw [gdCommonN_sum, hs]
    unfold gdCommon
    split_ifs <;> rfl
  refine ⟨key _ _ _ _ _ _ _, key _ _ _ _ _ _ _, key _ _ _ _ _ _ _, ?_⟩
  unfold avgHausdorffDistN
  rw [key, key, nanMax_some]
  rfl

theorem gdCommonN_ne_none (dim : ℕ) (minmax : ℕ → ℤ) (A : ℕ → ℕ → Dbl ℝ) (nA : ℕ) (R : ℕ → ℕ → Dbl ℝ) (nR : ℕ) (plus psize : Bool) (p : ℕ) :
    gdCommonN dim minmax A nA R nR plus psize p ≠ none := by
  rw [gdCommonN_sum]
  split_ifs
  · simp
  all_goals
    have := gdSumN_ne_none dim minmax A R nR plus p nA
    simp [this]

/-- **C105 (distances).** Whatever the data, no result is NaN. -/
theorem C105_distance_never_nan (A R : ℕ → ℕ → Dbl ℝ) (nobj nA nR p : ℕ) (mx : ℕ → Bool) :
    gdN A nobj nA R nR mx ≠ none ∧ igdN A nobj nA R nR mx ≠ none ∧ igdPlusN A nobj nA R nR mx ≠ none ∧
    avgHausdorffDistN A nobj nA R nR mx p ≠ none := by
  refine ⟨gdCommonN_ne_none _ _ _ _ _ _ _ _ _, gdCommonN_ne_none _ _ _ _ _ _ _ _ _, gdCommonN_ne_none _ _ _ _ _ _ _ _ _, ?_⟩
  unfold avgHausdorffDistN
  rw [Ne, nanMax_eq_none]
  exact gdCommonN_ne_none _ _ _ _ _ _ _ _ _

theorem gdDistN_nan {dim : ℕ} {mx : ℕ → Bool} {pa pr : ℕ → Dbl ℝ} {d : ℕ} (hd : d < dim) (h : pa d = none ∨ pr d = none) :
    gdDistN dim (minmaxFromBool mx) false pa pr = none := by
  rw [gdDistN_eq_none]
  refine ⟨d, hd, ?_, ?_⟩
  · rw [minmaxFromBool_cases]; split_ifs <;> omega
  · unfold gdDiffN
    rcases h with h | h <;> rw [h] <;> simp

theorem gdCommonN_nan_outer {dim : ℕ} {mx : ℕ → Bool} {A : ℕ → ℕ → Dbl ℝ} {nA : ℕ} {R : ℕ → ℕ → Dbl ℝ} {nR : ℕ} {psize : Bool} {p : ℕ}
    {a d : ℕ} (ha : a < nA) (hd : d < dim) (h : A a d = none) :
    gdCommonN dim (minmaxFromBool mx) A nA R nR false psize p = some ⊤ := by
  have hm : gdMinN dim (minmaxFromBool mx) false (A a) R nR = some ⊤ := by
    rw [gdMinN_eq]
    refine foldRange_inv minStepN (fun m => m = some ⊤) _ nR _ rfl fun r _ m hm => ?_
    rw [gdDistN_nan hd (Or.inl h), minStepN_none, hm]
  rw [gdCommonN_sum, if_neg (by omega), gdSumN_top ha hm]
  rfl

/-- **C105 (distances).** A NaN in a point of `A` makes GD and the averaged Hausdorff distance infinite, a NaN in a point of the reference set IGD and
the averaged Hausdorff distance. -/
theorem C105_distance_nan_infinite (A R : ℕ → ℕ → Dbl ℝ) (nobj nA nR p : ℕ) (mx : ℕ → Bool) (d : ℕ) (hd : d < nobj) :
    ((∃ a < nA, A a d = none) → gdN A nobj nA R nR mx = some ⊤ ∧ avgHausdorffDistN A nobj nA R nR mx p = some ⊤) ∧
    ((∃ r < nR, R r d = none) → igdN A nobj nA R nR mx = some ⊤ ∧ avgHausdorffDistN A nobj nA R nR mx p = some ⊤) := by
  constructor
  · rintro ⟨a, ha, h⟩
    refine ⟨gdCommonN_nan_outer ha hd h, ?_⟩
    unfold avgHausdorffDistN
    rw [gdCommonN_nan_outer ha hd h]
    obtain ⟨v, hv⟩ := Option.ne_none_iff_exists'.1 (gdCommonN_ne_none nobj (minmaxFromBool mx) R nR A nA false true p)
    rw [hv, nanMax_some, cMax_eq]
    simp
  · rintro ⟨r, hr, h⟩
    refine ⟨gdCommonN_nan_outer hr hd h, ?_⟩
    unfold avgHausdorffDistN
    rw [gdCommonN_nan_outer hr hd h]
    obtain ⟨v, hv⟩ := Option.ne_none_iff_exists'.1 (gdCommonN_ne_none nobj (minmaxFromBool mx) A nA R nR false true p)
    rw [hv, nanMax_some, cMax_eq]
    simp

theorem gdDistN_infinite {dim : ℕ} {mx : ℕ → Bool} {pa pr : ℕ → Dbl ℝ} {d : ℕ} (hd : d < dim) (h : pa d = some ⊤ ∨ pa d = some ⊥) :
    gdDistN dim (minmaxFromBool mx) false pa pr = none ∨ gdDistN dim (minmaxFromBool mx) false pa pr = some ⊤ := by
  unfold gdDistN
  induction dim with
  | zero => omega
  | succ n ih =>
    rw [List.range_succ, List.foldl_append, List.foldl_cons, List.foldl_nil, if_neg (by unfold minmaxFromBool; split_ifs <;> decide)]
    rcases Nat.lt_succ_iff_lt_or_eq.1 hd with hd | rfl
    · rcases ih hd with e | e
      · rw [e]; exact Or.inl rfl
      · rw [e]
        cases dblSq (gdDiffN false (minmaxFromBool mx n) (pa n) (pr n)) with
        | none => exact Or.inl rfl
        | some v => exact Or.inr (by simp [dblAdd])
    · have hsq : dblSq (gdDiffN false (minmaxFromBool mx d) (pa d) (pr d)) = none ∨ dblSq (gdDiffN false (minmaxFromBool mx d) (pa d) (pr d)) = some ⊤ := by
        unfold gdDiffN
        cases pr d with
        | none => rcases h with h | h <;> rw [h] <;> simp [dblSub, dblSq]
        | some r => rcases h with h | h <;> rw [h] <;> rcases ext_cases r with rfl | rfl | ⟨y, rfl⟩ <;> simp [dblSub, extSub, dblSq]
      rcases hsq with e | e
      · rw [e]; left; unfold dblAdd; split <;> simp_all
      · rw [e]
        cases (List.range d).foldl (fun dist d => if minmaxFromBool mx d = 0 then dist else dblAdd dist (dblSq (gdDiffN false (minmaxFromBool mx d) (pa d) (pr d)))) (some 0) with
        | none => exact Or.inl rfl
        | some v => exact Or.inr (by simp [dblAdd])

theorem gdCommonN_infinite {dim : ℕ} {mx : ℕ → Bool} {A : ℕ → ℕ → Dbl ℝ} {nA : ℕ} {R : ℕ → ℕ → Dbl ℝ} {nR : ℕ} {psize : Bool} {p : ℕ}
    {a d : ℕ} (ha : a < nA) (hd : d < dim) (h : A a d = some ⊤ ∨ A a d = some ⊥) :
    gdCommonN dim (minmaxFromBool mx) A nA R nR false psize p = some ⊤ := by
  have hm : gdMinN dim (minmaxFromBool mx) false (A a) R nR = some ⊤ := by
    rw [gdMinN_eq]
    refine foldRange_inv minStepN (fun m => m = some ⊤) _ nR _ rfl fun r _ m hm => ?_
    rcases gdDistN_infinite (mx := mx) (pr := R r) hd h with e | e
    · rw [e, minStepN_none, hm]
    · rw [e, hm]; simp [minStepN]
  rw [gdCommonN_sum, if_neg (by omega), gdSumN_top ha hm]
  rfl

/-- **C105 (distances).** An infinite coordinate in a point of `A` makes GD and the averaged Hausdorff distance infinite, one in a point of the reference set IGD and the averaged Hausdorff distance, even if
the other set has the same point: the distance of two sets that are equal is not 0 then. -/
theorem C105_distance_infinite (A R : ℕ → ℕ → Dbl ℝ) (nobj nA nR p : ℕ) (mx : ℕ → Bool) (d : ℕ) (hd : d < nobj) :
    ((∃ a < nA, A a d = some ⊤ ∨ A a d = some ⊥) → gdN A nobj nA R nR mx = some ⊤ ∧ avgHausdorffDistN A nobj nA R nR mx p = some ⊤) ∧
    ((∃ r < nR, R r d = some ⊤ ∨ R r d = some ⊥) → igdN A nobj nA R nR mx = some ⊤ ∧ avgHausdorffDistN A nobj nA R nR mx p = some ⊤) := by
  constructor
  · rintro ⟨a, ha, h⟩
    refine ⟨gdCommonN_infinite ha hd h, ?_⟩
    unfold avgHausdorffDistN
    rw [gdCommonN_infinite ha hd h]
    obtain ⟨v, hv⟩ := Option.ne_none_iff_exists'.1 (gdCommonN_ne_none nobj (minmaxFromBool mx) R nR A nA false true p)
    rw [hv, nanMax_some, cMax_eq]
    simp
  · rintro ⟨r, hr, h⟩
    refine ⟨gdCommonN_infinite hr hd h, ?_⟩
    unfold avgHausdorffDistN
    rw [gdCommonN_infinite hr hd h]
    obtain ⟨v, hv⟩ := Option.ne_none_iff_exists'.1 (gdCommonN_ne_none nobj (minmaxFromBool mx) A nA R nR false true p)
    rw [hv, nanMax_some, cMax_eq]
    simp

/-- The table without row `r`. -/
def dropRow (r : ℕ) (A : ℕ → ℕ → Dbl ℝ) : ℕ → ℕ → Dbl ℝ := fun i => if i < r then A i else A (i + 1)

theorem gdMinN_dropRow {dim : ℕ} {mx : ℕ → Bool} {pa : ℕ → Dbl ℝ} {R : ℕ → ℕ → Dbl ℝ} {nR r d : ℕ} (hr : r < nR) (hd : d < dim)
    (h : R r d = none) :
    gdMinN dim (minmaxFromBool mx) false pa R nR = gdMinN dim (minmaxFromBool mx) false pa (dropRow r R) (nR - 1) := by
  rw [gdMinN_eq, gdMinN_eq]
  rw [foldRange_split minStepN (fun i => gdDistN dim (minmaxFromBool mx) false pa (R i)) (r + 1) nR _ (by omega),
    foldRange_split minStepN (fun i => gdDistN dim (minmaxFromBool mx) false pa (dropRow r R i)) r (nR - 1) _ (by omega),
    List.range_succ, List.foldl_append, List.foldl_cons, List.foldl_nil, gdDistN_nan hd (Or.inr h), minStepN_none]
  rw [foldRange_congr minStepN (fun i => gdDistN dim (minmaxFromBool mx) false pa (R i))
    (fun i => gdDistN dim (minmaxFromBool mx) false pa (dropRow r R i)) r _ fun i hi => by simp [dropRow, hi]]
  rw [show nR - 1 - r = nR - (r + 1) by omega]
  refine foldRange_congr minStepN _ _ _ _ fun i _ => ?_
  unfold dropRow
  rw [if_neg (by omega), show r + 1 + i = r + i + 1 by omega]

/-- **C105 (distances).** A point with a NaN is ignored where the nearest point is looked for: a point of the reference set in GD, a point of `A` in
IGD. -/
theorem C105_distance_nan_ignored (A R : ℕ → ℕ → Dbl ℝ) (nobj nA nR : ℕ) (mx : ℕ → Bool) (d : ℕ) (hd : d < nobj) :
    (∀ r < nR, R r d = none → gdN A nobj nA R nR mx = gdN A nobj nA (dropRow r R) (nR - 1) mx) ∧
    (∀ a < nA, A a d = none → igdN A nobj nA R nR mx = igdN (dropRow a A) nobj (nA - 1) R nR mx) :=
  ⟨fun _ hr h => gdCommonN_congr fun _ _ => gdMinN_dropRow hr hd h, fun _ ha h => gdCommonN_congr fun _ _ => gdMinN_dropRow ha hd h⟩

/-- **C105 (IGD+).** A NaN in a point of `A` counts as an infinitely good value, a NaN in a reference point as an infinitely bad one. -/
theorem C105_igd_plus_nan_good (A R : ℕ → ℕ → Dbl ℝ) (nobj nA nR : ℕ) (mx : ℕ → Bool)
    (hA : ∀ a < nA, ∀ d < nobj, FinOrNan (A a d)) (hR : ∀ r < nR, ∀ d < nobj, FinOrNan (R r d)) :
    igdPlusN A nobj nA R nR mx =
      igdPlusN (fun a d => if A a d = none then goodVal mx d else A a d) nobj nA
        (fun r d => if R r d = none then badVal mx d else R r d) nR mx := by
  refine gdCommonN_congr fun r hr => ?_
  rw [gdMinN_eq, gdMinN_eq]
  refine foldRange_congr minStepN _ _ nA _ fun a ha => ?_
  unfold gdDistN
  have : ∀ n ≤ nobj, (List.range n).foldl (fun dist d => if minmaxFromBool mx d = 0 then dist
      else dblAdd dist (dblSq (gdDiffN true (minmaxFromBool mx d) (R r d) (A a d)))) (some 0) =
    (List.range n).foldl (fun dist d => if minmaxFromBool mx d = 0 then dist
      else dblAdd dist (dblSq (gdDiffN true (minmaxFromBool mx d) (if R r d = none then badVal mx d else R r d)
        (if A a d = none then goodVal mx d else A a d)))) (some 0) := by
    intro n hn
    induction n with
    | zero => rfl
    | succ n ih =>
      rw [List.range_succ, List.foldl_append, List.foldl_append, ih (by omega), List.foldl_cons, List.foldl_cons, List.foldl_nil,
        List.foldl_nil]
      have hd : gdDiffN true (minmaxFromBool mx n) (R r n) (A a n) = gdDiffN true (minmaxFromBool mx n)
          (if R r n = none then badVal mx n else R r n) (if A a n = none then goodVal mx n else A a n) := by
        rw [minmaxFromBool_cases]
        unfold gdDiffN goodVal badVal
        rcases hA a ha n (by omega) with h1 | ⟨x, h1⟩ <;> rcases hR r hr n (by omega) with h2 | ⟨y, h2⟩ <;> rw [h1, h2] <;>
          cases mx n <;> simp [dblSub, extSub, cMax_eq]
      rw [hd]
  exact this nobj le_rfl

/-- **C105 (IGD+).** A single point of NaNs in `A` gives the best possible value 0, whatever the reference set and the other points. -/
theorem C105_igd_plus_all_nan (A R : ℕ → ℕ → Dbl ℝ) (nobj nA nR : ℕ) (mx : ℕ → Bool) (a : ℕ) (ha : a < nA) (hR : 0 < nR)
    (hn : ∀ d < nobj, A a d = none) : igdPlusN A nobj nA R nR mx = some 0 := by
  have hdist : ∀ pr : ℕ → Dbl ℝ, gdDistN nobj (minmaxFromBool mx) true pr (A a) = some 0 := by
    intro pr
    unfold gdDistN
    have : ∀ n ≤ nobj, (List.range n).foldl (fun dist d => if minmaxFromBool mx d = 0 then dist
        else dblAdd dist (dblSq (gdDiffN true (minmaxFromBool mx d) (pr d) (A a d)))) (some 0) = some 0 := by
      intro n hle
      induction n with
      | zero => rfl
      | succ n ih =>
        rw [List.range_succ, List.foldl_append, ih (by omega), List.foldl_cons, List.foldl_nil, hn n (by omega)]
        split_ifs
        · rfl
        · unfold gdDiffN
          simp
    exact this nobj le_rfl
  have hnn : ∀ (pr pa : ℕ → Dbl ℝ) (v : WithTop ℝ), gdDistN nobj (minmaxFromBool mx) true pr pa = some v → 0 ≤ v := by
    intro pr pa
    unfold gdDistN
    generalize nobj = n
    induction n with
    | zero => intro v hv; simp at hv; subst hv; exact le_refl _
    | succ n ih =>
      intro v hv
      rw [List.range_succ, List.foldl_append, List.foldl_cons, List.foldl_nil] at hv
      split_ifs at hv
      · exact ih v hv
      · revert hv
        cases hs : (List.range n).foldl (fun dist d => if minmaxFromBool mx d = 0 then dist
            else dblAdd dist (dblSq (gdDiffN true (minmaxFromBool mx d) (pr d) (pa d)))) (some 0) with
        | none => simp
        | some s =>
          cases hq : gdDiffN true (minmaxFromBool mx n) (pr n) (pa n) with
          | none => simp [dblSq]
          | some q =>
            intro hv
            simp only [dblSq, Option.map_some, dblAdd_some, Option.some_inj] at hv
            subst hv
            refine add_nonneg (ih s hs) ?_
            split_ifs
            · exact le_top
            · exact_mod_cast mul_self_nonneg (finVal q)
  have hmin : ∀ r, gdMinN nobj (minmaxFromBool mx) true (R r) A nA = some 0 := by
    intro r
    rw [gdMinN_eq, foldRange_split minStepN (fun i => gdDistN nobj (minmaxFromBool mx) true (R r) (A i)) (a + 1) nA _ (by omega),
      List.range_succ, List.foldl_append, List.foldl_cons, List.foldl_nil, hdist]
    have h0 : ∀ m : Option (WithTop ℝ), (∃ v, m = some v ∧ 0 ≤ v) → minStepN m (some 0) = some 0 := by
      rintro m ⟨v, rfl, hv⟩
      unfold minStepN ieeeCmp
      rcases hv.lt_or_eq with h | h
      · simp [h]
      · simp [← h]
    rw [h0]
    · refine foldRange_inv minStepN (fun m => m = some 0) _ _ _ rfl fun i _ m hm => ?_
      rw [hm]
      unfold minStepN
      split_ifs with hc
      · cases hx : gdDistN nobj (minmaxFromBool mx) true (R r) (A (a + 1 + i)) with
        | none => rw [hx] at hc; simp [ieeeCmp] at hc
        | some v =>
          have := hnn _ _ v hx
          rw [hx] at hc
          simp [ieeeCmp] at hc
          exact absurd hc (not_lt.2 this)
      · rfl
    · refine foldRange_inv minStepN (fun m => ∃ v, m = some v ∧ 0 ≤ v) _ _ _ ⟨⊤, rfl, le_top⟩ fun i _ m hm => ?_
      unfold minStepN
      split_ifs with hc
      · cases hx : gdDistN nobj (minmaxFromBool mx) true (R r) (A i) with
        | none => rw [hx] at hc; simp [ieeeCmp] at hc
        | some v => exact ⟨v, rfl, hnn _ _ v hx⟩
      · exact hm
  have hsum : ∀ n, gdSumN nobj (minmaxFromBool mx) R A nA true 1 n = some 0 := by
    intro n
    induction n with
    | zero => rfl
    | succ n ih =>
      rw [gdSumN_succ, ih, hmin, if_pos rfl]
      simp
  unfold igdPlusN
  rw [gdCommonN_sum, if_neg (by omega), hsum, if_pos rfl]
  simp

/-! ### What does not hold -/

/-- Two points in one objective: 5 and NaN, in this order. -/
def nanLast : ℕ → ℕ → Dbl ℚ := fun i _ => if i = 0 then some (fin 5) else none

/-- The same points in the other order. -/
def nanFirst : ℕ → ℕ → Dbl ℚ := fun i _ => if i = 0 then none else some (fin 5)

/-- **C105 (false: a NaN is ignored, a NaN is reported, the order of the points does not matter).** The same two points give NaN in one order and 5 in
the other. -/
theorem C105_false_order :
    epsilonAdditiveN nanLast 1 2 (fun _ _ => some (fin 0)) 1 (fun _ => false) = none ∧
    epsilonAdditiveN nanFirst 1 2 (fun _ _ => some (fin 0)) 1 (fun _ => false) = some (fin 5) := by
  decide +kernel

/-- **C105 (false: a value of at most 0 means weak dominance).** The point (7, NaN, 0) has the value -1 with respect to (1, 1, 1), although it is worse
in the first objective. -/
theorem C105_false_dominance :
    epsilonAdditiveN (fun _ d => if d = 0 then some (fin 7) else if d = 1 then none else some (fin 0)) 3 1
      (fun _ _ => some (fin (1 : ℚ))) 1 (fun _ => false) = some (fin (-1)) := by
  decide +kernel

/-! ### The hypotheses are met -/

example : epsilonAdditiveN (rowsFrom 1 nanFirst) 1 1 (fun _ _ => some (fin 0)) 1 (fun _ => false) = some (fin 5) := by
  rw [← C105_additive_nan_point nanFirst (fun _ _ => some (fin 0)) 0 2 1 (fun _ => false) 0 (by norm_num) rfl]
  exact C105_false_order.2

example : PosTable 1 2 nanFirst := by
  intro a _ d _ h
  obtain ⟨v, hv, hle⟩ := h
  unfold nanFirst at hv
  split_ifs at hv
  simp only [Option.some_inj] at hv
  subst hv
  exact absurd (fin_le_fin.1 hle) (by norm_num)

example : epsilonMultN nanFirst 1 2 (fun _ _ => some (fin 2)) 1 (fun _ => false) = some (some (fin (5 / 2))) := by decide +kernel

example : igdPlusN (fun a d => if a = 0 then none else some (fin (a + d))) 2 3 (fun r d => some (fin (r - d))) 4 (fun d => d = 0) = some 0 :=
  C105_igd_plus_all_nan _ _ 2 3 4 _ 0 (by norm_num) (by norm_num) fun _ _ => rfl

example : igdN (fun a d => if a = 1 ∧ d = 1 then none else some (fin (a + d))) 2 3 (fun r d => some (fin (r - d))) 4 (fun d => d = 0) =
    igdN (dropRow 1 fun a d => if a = 1 ∧ d = 1 then none else some (fin (a + d))) 2 2 (fun r d => some (fin (r - d))) 4 (fun d => d = 0) :=
  (C105_distance_nan_ignored _ _ 2 3 4 _ 1 (by norm_num)).2 1 (by norm_num) (by simp)

end Moo
