import Verif.Model.IndWrappers
import Verif.Spec.IndWrappers
import Verif.Props.Epsilon
import Verif.Props.Igd
import Verif.Props.HvWrappers

/-!
# C73: the unary quality indicators of the Python and R packages
-/

set_option autoImplicit false
set_option linter.unusedSectionVars false

namespace Moo

/-- The Python function for an indicator. -/
noncomputable def pyIndicator (f : QualityIndicator) (data ref : ArrArg ℝ) (maximise : List Bool) : IndOut (Ext ℝ) :=
  match f with
  | .epsilonAdditive => pyEpsilonAdditive data ref maximise
  | .epsilonMult => pyEpsilonMult data ref maximise
  | .igd => pyIgd data ref maximise
  | .igdPlus => pyIgdPlus data ref maximise
  | .avgHausdorff p => pyAvgHausdorff data ref maximise p

/-- The R function for an indicator. -/
noncomputable def rIndicator (f : QualityIndicator) (data ref : ArrArg ℝ) (maximise : List Bool) : IndOut (Ext ℝ) :=
  match f with
  | .epsilonAdditive => rEpsilonAdditive data ref maximise
  | .epsilonMult => rEpsilonMult data ref maximise
  | .igd => rIgd data ref maximise
  | .igdPlus => rIgdPlus data ref maximise
  | .avgHausdorff p => rAvgHausdorff data ref maximise p

/-- The exponent fits in an `int` of C. -/
def ExponentFits : QualityIndicator → Prop
  | .avgHausdorff p => p < 2 ^ 31
  | _ => True

/-- The array given as the reference set has these rows; in Python a vector stands for a single row. -/
def IsRows (py : Bool) (ref : ArrArg ℝ) (nR ncol : ℕ) (R : ℕ → ℕ → ℝ) : Prop :=
  ref = .mat nR ncol R ∨ py = true ∧ ∃ l, ref = .vec l ∧ nR = 1 ∧ l.length = ncol ∧ ∀ k < ncol, l[k]? = some (R 0 k)

/-- The C function for an indicator. -/
def QualityIndicator.metric : QualityIndicator → Metric
  | .epsilonAdditive => .epsAdd
  | .epsilonMult => .epsMul
  | .igd => .invGd
  | .igdPlus => .invGdPlus
  | .avgHausdorff p => .hausdorff p

theorem IsNearest.congr {f g : (ℕ → ℝ) → ℝ} {A B : ℕ → ℕ → ℝ} {n : ℕ} {m : ℝ} (h : IsNearest f A n m) (e : ∀ a < n, f (A a) = g (B a)) : IsNearest g B n m := by
  obtain ⟨⟨a, ha, h1⟩, h2⟩ := h
  exact ⟨⟨a, ha, by rw [h1, e a ha]⟩, fun b hb => by rw [← e b hb]; exact h2 b hb⟩

/-- The C functions compute the indicators. -/
theorem callMetric_spec (f : QualityIndicator) (A R : ℕ → ℕ → ℝ) (nobj nA nR : ℕ) (mx : ℕ → Bool) (hd : 0 < nobj) (hA : 0 < nA) (hR : 0 < nR)
    (hdef : IndicatorDefined nobj A nA R nR f) :
    ∃ v : ℝ, callMetric f.metric A nobj nA R nR mx = some (fin v) ∧ IsIndicator nobj mx A nA R nR f v := by
  cases f with
  | epsilonAdditive =>
    obtain ⟨e, h1, h2, h3⟩ := C17_epsilon_additive_least A R nobj nA nR mx hd hA hR
    exact ⟨e, by simp [callMetric, QualityIndicator.metric, h1], h2, fun e' h => h3 e' h⟩
  | epsilonMult =>
    obtain ⟨e, h1, h2, h3, h4⟩ := C18_epsilon_mult_least A R nobj nA nR mx hd hA hR hdef.1 hdef.2
    exact ⟨e, h1, ⟨h2, h3⟩, fun e' h => h4 e' h.1 h.2⟩
  | igd =>
    obtain ⟨m, h1, h2⟩ := C20_igd_mean_nearest A R nobj nA nR mx hA hR
    refine ⟨_, by simp only [callMetric, QualityIndicator.metric, h2]; rfl, m, fun r hr => (h1 r hr).congr (fun a _ => euclid_comm nobj _ _), by simp⟩
  | igdPlus =>
    obtain ⟨m, h1, h2⟩ := C21_igd_plus_mean_nearest A R nobj nA nR mx hA hR
    exact ⟨_, by simp only [callMetric, QualityIndicator.metric, h2]; rfl, m, h1, by simp⟩
  | avgHausdorff p =>
    obtain ⟨mA, mR, h1, h2, h3⟩ := C20_avg_hausdorff A R nobj nA nR p mx hA hR hdef
    refine ⟨_, by simp only [callMetric, QualityIndicator.metric, h3]; rfl, _, _, ⟨mA, h1, rfl⟩, ⟨mR, fun r hr => (h2 r hr).congr (fun a _ => euclid_comm nobj _ _), rfl⟩, rfl⟩

/-- The value of an indicator depends only on the entries of the tables and on the directions. -/
theorem IsIndicator.congr {f : QualityIndicator} {A R R' : ℕ → ℕ → ℝ} {nobj nA nR : ℕ} {mx mx' : ℕ → Bool} {v : ℝ} (h : IsIndicator nobj mx A nA R nR f v)
    (hR : ∀ r < nR, ∀ k < nobj, R r k = R' r k) (hm : ∀ k < nobj, mx k = mx' k) : IsIndicator nobj mx' A nA R' nR f v := by
  have heu : ∀ a, ∀ r < nR, euclid nobj a (R r) = euclid nobj a (R' r) := by
    intro a r hr
    unfold euclid
    congr 1
    exact Finset.sum_congr rfl fun d hd => by rw [hR r hr d (Finset.mem_range.1 hd)]
  have heu' : ∀ a, ∀ r < nR, euclid nobj (R r) a = euclid nobj (R' r) a := by
    intro a r hr
    rw [euclid_comm, heu a r hr, euclid_comm]
  have hpl : ∀ a, ∀ r < nR, distPlus nobj mx a (R r) = distPlus nobj mx' a (R' r) := by
    intro a r hr
    unfold distPlus
    congr 1
    exact Finset.sum_congr rfl fun d hd => by rw [hR r hr d (Finset.mem_range.1 hd), hm d (Finset.mem_range.1 hd)]
  cases f with
  | epsilonAdditive =>
    have : ∀ e, SetWeakDom nobj mx (fun i => improveAdd mx e (A i)) nA R nR ↔ SetWeakDom nobj mx' (fun i => improveAdd mx' e (A i)) nA R' nR := by
      intro e
      refine forall_congr' fun b => forall_congr' fun hb => exists_congr fun a => and_congr_right fun _ => forall_congr' fun d => forall_congr' fun hd => ?_
      simp only [improveAdd, hR b hb d hd, hm d hd]
    simpa only [IsIndicator, this] using h
  | epsilonMult =>
    have : ∀ e, SetWeakDom nobj mx (fun i => improveMult mx e (A i)) nA R nR ↔ SetWeakDom nobj mx' (fun i => improveMult mx' e (A i)) nA R' nR := by
      intro e
      refine forall_congr' fun b => forall_congr' fun hb => exists_congr fun a => and_congr_right fun _ => forall_congr' fun d => forall_congr' fun hd => ?_
      simp only [improveMult, hR b hb d hd, hm d hd]
    simpa only [IsIndicator, this] using h
  | igd =>
    obtain ⟨m, h1, h2⟩ := h
    exact ⟨m, fun r hr => (h1 r hr).congr (fun a _ => heu' _ r hr), h2⟩
  | igdPlus =>
    obtain ⟨m, h1, h2⟩ := h
    exact ⟨m, fun r hr => (h1 r hr).congr (fun a _ => hpl _ r hr), h2⟩
  | avgHausdorff p =>
    obtain ⟨a, b, ⟨m, h1, h2⟩, ⟨m', h3, h4⟩, h5⟩ := h
    exact ⟨a, b, ⟨m, fun i hi => (h1 i hi).congr (fun r hr => heu _ r hr), h2⟩, ⟨m', fun r hr => (h3 r hr).congr (fun _ _ => heu' _ r hr), h4⟩, h5⟩

theorem IsNearest.unique {f : (ℕ → ℝ) → ℝ} {A : ℕ → ℕ → ℝ} {n : ℕ} {m m' : ℝ} (h : IsNearest f A n m) (h' : IsNearest f A n m') : m = m' := by
  obtain ⟨⟨a, ha, e⟩, h2⟩ := h
  obtain ⟨⟨b, hb, e'⟩, h2'⟩ := h'
  exact le_antisymm (e' ▸ h2 b hb) (e ▸ h2' a ha)

theorem IsAvgNearest.unique {dist : (ℕ → ℝ) → (ℕ → ℝ) → ℝ} {p : ℕ} {A : ℕ → ℕ → ℝ} {nA : ℕ} {B : ℕ → ℕ → ℝ} {nB : ℕ} {v w : ℝ} (h : IsAvgNearest dist p A nA B nB v)
    (h' : IsAvgNearest dist p A nA B nB w) : v = w := by
  obtain ⟨m, h1, rfl⟩ := h
  obtain ⟨m', h1', rfl⟩ := h'
  rw [Finset.sum_congr rfl (fun a ha => by rw [(h1 a (Finset.mem_range.1 ha)).unique (h1' a (Finset.mem_range.1 ha))])]

/-- An indicator has one value. -/
theorem IsIndicator.unique {f : QualityIndicator} {A R : ℕ → ℕ → ℝ} {nobj nA nR : ℕ} {mx : ℕ → Bool} {v w : ℝ} (h : IsIndicator nobj mx A nA R nR f v)
    (h' : IsIndicator nobj mx A nA R nR f w) : v = w := by
  cases f with
  | epsilonAdditive => exact IsLeast.unique h h'
  | epsilonMult => exact IsLeast.unique h h'
  | igd => exact IsAvgNearest.unique h h'
  | igdPlus => exact IsAvgNearest.unique (dist := fun r a => distPlus nobj mx a r) h h'
  | avgHausdorff p =>
    obtain ⟨a, b, h1, h2, rfl⟩ := h
    obtain ⟨a', b', h1', h2', rfl⟩ := h'
    rw [h1.unique h1', h2.unique h2']

theorem IndicatorDefined.congr {f : QualityIndicator} {A R R' : ℕ → ℕ → ℝ} {nobj nA nR : ℕ} (h : IndicatorDefined nobj A nA R nR f)
    (hR : ∀ r < nR, ∀ k < nobj, R r k = R' r k) : IndicatorDefined nobj A nA R' nR f := by
  cases f with
  | epsilonMult => exact ⟨h.1, fun r hr d hd => by rw [← hR r hr d hd]; exact h.2 r hr d hd⟩
  | avgHausdorff p => exact h
  | _ => trivial

/-! ### The arguments -/

theorem pyIndicator_eq (f : QualityIndicator) (data ref : ArrArg ℝ) (maximise : List Bool) (hp : ∀ p, f = .avgHausdorff p → 1 ≤ p ∧ p < 2 ^ 32) :
    pyIndicator f data ref maximise = pyUnary f.metric data ref maximise := by
  cases f with
  | avgHausdorff p =>
    have := hp p rfl
    have h0 : ¬ ((p : ℝ) ≤ 0) := by
      rw [not_le]; exact_mod_cast this.1
    simp only [pyIndicator, pyAvgHausdorff, if_neg h0, QualityIndicator.metric, Nat.floor_natCast, Nat.mod_eq_of_lt this.2]
  | _ => rfl

theorem rIndicator_eq (f : QualityIndicator) (data ref : ArrArg ℝ) (maximise : List Bool) (hp : ExponentFits f) :
    rIndicator f data ref maximise = rUnary f.metric data ref maximise := by
  cases f with
  | avgHausdorff p =>
    have h : p < 2 ^ 31 := hp
    simp only [rIndicator, rAvgHausdorff, QualityIndicator.metric]
    congr 2
    norm_num at h ⊢
    omega
  | _ => rfl

theorem IsRows.atleast2d {ref : ArrArg ℝ} {nR ncol : ℕ} {R : ℕ → ℕ → ℝ} {py : Bool} (h : IsRows py ref nR ncol R) :
    (atleast2d ref).1 = nR ∧ (atleast2d ref).2.1 = ncol ∧ ∀ r < nR, ∀ k < ncol, (Moo.atleast2d ref).2.2 r k = R r k := by
  rcases h with rfl | ⟨_, l, rfl, rfl, hl, hk⟩
  · exact ⟨rfl, rfl, fun _ _ _ _ => rfl⟩
  · refine ⟨rfl, hl, fun r hr k hk' => ?_⟩
    have : r = 0 := by omega
    subst this
    simp [Moo.atleast2d, List.getD_eq_getElem?_getD, hk k hk']

/-! ### Python -/

/-- **C73, Python.** Every indicator of `data` with respect to the reference set, with `maximise` a single value or one value per objective, is what it should be.  The reference set may
be given as a vector, which stands for one point.  Partial: the exponent of the averaged Hausdorff distance is a positive integer; for other positive numbers the claim is false
(`C73_false_small_exponent`, `C73_fractional_exponent`). -/
theorem C73_py_indicator_partial (f : QualityIndicator) (A R : ℕ → ℕ → ℝ) (nobj nA nR : ℕ) (ref : ArrArg ℝ) (maximise : List Bool) (mx : ℕ → Bool)
    (hd : 0 < nobj) (hA : 0 < nA) (hR : 0 < nR) (href : IsRows true ref nR nobj R) (hm : PerObjective nobj maximise mx)
    (hdef : IndicatorDefined nobj A nA R nR f) (hp : ExponentFits f) :
    ∃ v : ℝ, pyIndicator f (.mat nA nobj A) ref maximise = .value (fin v) ∧ IsIndicator nobj mx A nA R nR f v := by
  rw [pyIndicator_eq f _ _ _ (by
    rintro p rfl
    exact ⟨hdef, lt_trans (show p < 2 ^ 31 from hp) (by norm_num)⟩)]
  obtain ⟨h1, h2, h3⟩ := href.atleast2d
  obtain ⟨v, e, hv⟩ := callMetric_spec f A (atleast2d ref).2.2 nobj nA nR (fun k => ((List.range nobj).map mx).getD k false) hd hA hR
    (hdef.congr (fun r hr k hk => (h3 r hr k hk).symm))
  refine ⟨v, ?_, hv.congr h3 (fun k hk => by simp [List.getD_eq_getElem?_getD, hk])⟩
  unfold pyUnary
  simp only [h2, ne_eq, not_true_eq_false, if_false, atleast1d_spec maximise nobj mx hm, h1, e]

/-- **C73, Python, errors.** An exception is raised if and only if `data` is not a table, its number of columns is not that of the reference set, or `maximise` does not have 1 element or one
per objective. -/
theorem C73_py_error (f : QualityIndicator) (data ref : ArrArg ℝ) (maximise : List Bool) (hp : ∀ p, f = .avgHausdorff p → 1 ≤ p) (hp' : ExponentFits f) :
    pyIndicator f data ref maximise = .error ↔
      ¬ ∃ nA nobj A nR R, data = .mat nA nobj A ∧ IsRows true ref nR nobj R ∧ (maximise.length = 1 ∨ maximise.length = nobj) := by
  rw [pyIndicator_eq f _ _ _ (by
    rintro p rfl
    exact ⟨hp p rfl, lt_trans (show p < 2 ^ 31 from hp') (by norm_num)⟩)]
  cases data with
  | vec l => simp [pyUnary]
  | mat nA nobj A =>
    have hrow : (∃ nR R, IsRows true ref nR nobj R) ↔ nobj = (atleast2d ref).2.1 := by
      cases ref with
      | vec l =>
        constructor
        · rintro ⟨nR, R, h⟩
          exact h.atleast2d.2.1.symm
        · intro h
          refine ⟨1, fun _ k => l.getD k 0, Or.inr ⟨rfl, l, rfl, rfl, h.symm, fun k hk => ?_⟩⟩
          have : k < l.length := by rw [show l.length = nobj from h.symm]; exact hk
          simp [List.getElem?_eq_getElem this]
      | mat a b t =>
        constructor
        · rintro ⟨nR, R, h⟩
          exact h.atleast2d.2.1.symm
        · intro h
          have h : nobj = b := h
          subst h
          exact ⟨a, t, Or.inl rfl⟩
    have e : (∃ nA' nobj' A' nR R, (ArrArg.mat nA nobj A : ArrArg ℝ) = .mat nA' nobj' A' ∧ IsRows true ref nR nobj' R ∧ (maximise.length = 1 ∨ maximise.length = nobj')) ↔
        nobj = (atleast2d ref).2.1 ∧ (maximise.length = 1 ∨ maximise.length = nobj) := by
      rw [← hrow]
      constructor
      · rintro ⟨a, b, c, nR, R, h1, h2, h3⟩
        cases h1
        exact ⟨⟨nR, R, h2⟩, h3⟩
      · rintro ⟨⟨nR, R, h2⟩, h3⟩
        exact ⟨nA, nobj, A, nR, R, rfl, h2, h3⟩
    rw [e]
    unfold pyUnary
    by_cases h1 : nobj = (atleast2d ref).2.1
    · by_cases h2 : maximise.length = 1 ∨ maximise.length = nobj
      · obtain ⟨mx, hmx⟩ := exists_perObjective maximise nobj h2
        have hn : ¬ (nobj ≠ (atleast2d ref).2.1) := by simpa using h1
        simp only [if_neg hn, atleast1d_spec maximise nobj mx hmx]
        have hR : ¬¬(nobj = (atleast2d ref).2.1 ∧ (maximise.length = 1 ∨ maximise.length = nobj)) := not_not.2 ⟨h1, h2⟩
        refine ⟨fun h => ?_, fun h => absurd h hR⟩
        generalize callMetric f.metric A nobj nA (atleast2d ref).2.2 (atleast2d ref).1 (fun k => ((List.range nobj).map mx).getD k false) = o at h
        cases o <;> simp at h
      · have hn : ¬ (nobj ≠ (atleast2d ref).2.1) := by simpa using h1
        simp only [if_neg hn, atleast1d_none maximise nobj h2, true_iff]
        exact fun h => h2 h.2
    · simp only [ne_eq, h1, not_false_eq_true, if_true, false_and]

/-- **C73, Python, `epsilon_mult`.** If a value is not positive then no exception is raised: the process ends. -/
theorem C73_py_epsilon_mult_exit (A R : ℕ → ℕ → ℝ) (nobj nA nR : ℕ) (ref : ArrArg ℝ) (maximise : List Bool)
    (hA : 0 < nA) (hR : 0 < nR) (href : IsRows true ref nR nobj R) (hm : maximise.length = 1 ∨ maximise.length = nobj)
    (hbad : (∃ a < nA, ∃ d < nobj, A a d ≤ 0) ∨ ∃ r < nR, ∃ d < nobj, R r d ≤ 0) :
    pyEpsilonMult (.mat nA nobj A) ref maximise = .exit := by
  obtain ⟨mx, hmx⟩ := exists_perObjective maximise nobj hm
  obtain ⟨h1, h2, h3⟩ := href.atleast2d
  unfold pyEpsilonMult pyUnary
  simp only [h2, ne_eq, not_true_eq_false, if_false, atleast1d_spec maximise nobj mx hmx, h1, callMetric]
  rw [(C18_epsilon_mult_error_iff A (atleast2d ref).2.2 nobj nA nR _ hA hR).2]
  rcases hbad with h | ⟨r, hr, d, hd, h⟩
  · exact Or.inl h
  · exact Or.inr ⟨r, hr, d, hd, by rw [h3 r hr d hd]; exact h⟩

theorem epsMult_no_points (R : ℕ → ℕ → ℝ) (A : ℕ → ℕ → ℝ) (nobj nR : ℕ) (mx : ℕ → Bool) (hR : 0 < nR) : epsilonMult A nobj 0 R nR mx = some ⊤ := by
  have key : ∀ (l : List ℕ) (m : Ext ℝ), (l ≠ [] ∨ m = ⊤) → epsMultOuter nobj (minmaxFromBool mx) A 0 R l m = some ⊤ := by
    intro l
    induction l with
    | nil => intro m h; rw [h.resolve_left (fun h => h rfl)]; rfl
    | cons b l ih =>
      intro m _
      simp only [epsMultOuter, List.range_zero, epsMultMin]
      exact ih _ (Or.inr (by rw [cMax_eq]; simp))
  exact key _ _ (Or.inl (range_ne_nil hR))

theorem gdCommon_no_reference (A R : ℕ → ℕ → ℝ) (nobj nA : ℕ) (dir : ℕ → ℤ) (plus psize : Bool) : gdCommon nobj dir A nA R 0 plus psize 1 = ⊤ := by
  have key : ∀ (l : List ℕ) (m : WithTop ℝ), (l ≠ [] ∨ m = ⊤) → l.foldl (fun gd _ => gd + (⊤ : WithTop ℝ)) m = ⊤ := by
    intro l
    induction l with
    | nil => intro m h; exact h.resolve_left (fun h => h rfl)
    | cons b l ih =>
      intro m _
      rw [List.foldl_cons]
      exact ih _ (Or.inr (by simp))
  unfold gdCommon
  by_cases h : nA = 0
  · rw [if_pos h]
  · rw [if_neg h]
    simp only [gdMin, List.range_zero, List.foldl_nil, WithTop.map_top, if_true]
    rw [key _ _ (Or.inl (range_ne_nil (Nat.pos_of_ne_zero h)))]
    rfl

/-- **C73, Python, empty arrays** (R does not accept them): with no points the indicators are infinite; with no reference points the epsilon indicators are `-∞` and `0`, and
IGD and IGD+ infinite. -/
theorem C73_py_empty (A R : ℕ → ℕ → ℝ) (nobj nA nR : ℕ) (maximise : List Bool) (hm : maximise.length = 1 ∨ maximise.length = nobj) (hR : 0 < nR) :
    pyEpsilonAdditive (.mat 0 nobj A) (.mat nR nobj R) maximise = .value ⊤ ∧ pyEpsilonMult (.mat 0 nobj A) (.mat nR nobj R) maximise = .value ⊤ ∧
    pyIgd (.mat 0 nobj A) (.mat nR nobj R) maximise = .value ⊤ ∧ pyIgdPlus (.mat 0 nobj A) (.mat nR nobj R) maximise = .value ⊤ ∧
    pyEpsilonAdditive (.mat nA nobj A) (.mat 0 nobj R) maximise = .value ⊥ ∧ pyEpsilonMult (.mat nA nobj A) (.mat 0 nobj R) maximise = .value (fin 0) ∧
    pyIgd (.mat nA nobj A) (.mat 0 nobj R) maximise = .value ⊤ ∧ pyIgdPlus (.mat nA nobj A) (.mat 0 nobj R) maximise = .value ⊤ := by
  obtain ⟨mx, hmx⟩ := exists_perObjective maximise nobj hm
  have h : ∀ (f : Metric) (n n' : ℕ), pyUnary f (.mat n nobj A) (.mat n' nobj R) maximise =
      (callMetric f A nobj n R n' (fun k => ((List.range nobj).map mx).getD k false)).elim .exit .value := by
    intro f n n'
    unfold pyUnary
    simp only [atleast2d, ne_eq, not_true_eq_false, if_false, atleast1d_spec maximise nobj mx hmx]
    cases callMetric f A nobj n R n' (fun k => ((List.range nobj).map mx).getD k false) <;> rfl
  simp only [pyEpsilonAdditive, pyEpsilonMult, pyIgd, pyIgdPlus, h, callMetric]
  refine ⟨?_, ?_, ?_, ?_, ?_, ?_, ?_, ?_⟩
  · rw [(C17_epsilon_additive_empty A R nobj 0 nR _).2 hR]; rfl
  · rw [epsMult_no_points R A nobj nR _ hR]; rfl
  · simp only [igd, igdMinmax, gdCommon_no_reference]; rfl
  · simp only [igdPlus, igdPlusMinmax, gdCommon_no_reference]; rfl
  · rw [(C17_epsilon_additive_empty A R nobj nA 0 _).1]; rfl
  · rfl
  · rfl
  · rfl

/-- **C73, false for exponents between 0 and 1.** The documentation of `avg_hausdorff_dist` asks for `p > 0`, and such an exponent is accepted, but the result is always 1. -/
theorem C73_false_small_exponent (A R : ℕ → ℕ → ℝ) (nobj nA nR : ℕ) (maximise : List Bool) (hm : maximise.length = 1 ∨ maximise.length = nobj)
    (hA : 0 < nA) (hR : 0 < nR) (p : ℝ) (h0 : 0 < p) (h1 : p < 1) :
    pyAvgHausdorff (.mat nA nobj A) (.mat nR nobj R) maximise p = .value (fin 1) := by
  obtain ⟨mx, hmx⟩ := exists_perObjective maximise nobj hm
  have hp : ⌊p⌋₊ % 2 ^ 32 = 0 := by rw [(Nat.floor_eq_zero).2 h1]; rfl
  unfold pyAvgHausdorff pyUnary
  simp only [if_neg (not_le.2 h0), hp, atleast2d, ne_eq, not_true_eq_false, if_false, atleast1d_spec maximise nobj mx hmx, callMetric, avgHausdorffDist, avgHausdorffMinmax]
  have key : ∀ (A R : ℕ → ℕ → ℝ) (nA nR : ℕ) (dir : ℕ → ℤ), 0 < nA → 0 < nR → gdCommon nobj dir A nA R nR false true 0 = ((1 : ℝ) : WithTop ℝ) := by
    intro A R nA nR dir hA hR
    obtain ⟨m, _, e⟩ := gdCommon_spec nobj dir A nA R nR false true 0 hA hR
    rw [e]
    have : (nA : ℝ) ≠ 0 := by positivity
    simp [div_self this]
  rw [key A R nA nR _ hA hR, key R A nR nA _ hR hA, cMax_eq, max_self]
  rfl

/-- **C73, fractional exponents.** The fractional part of the exponent is ignored. -/
theorem C73_fractional_exponent (data ref : ArrArg ℝ) (maximise : List Bool) (p : ℝ) (h : 1 ≤ p) :
    pyAvgHausdorff data ref maximise p = pyAvgHausdorff data ref maximise ⌊p⌋₊ := by
  have h0 : ¬ p ≤ 0 := by linarith
  have h1 : ¬ ((⌊p⌋₊ : ℝ) ≤ 0) := by
    rw [not_le]
    exact_mod_cast Nat.floor_pos.2 h
  simp only [pyAvgHausdorff, if_neg h0, if_neg h1, Nat.floor_natCast]

/-- A non-positive exponent raises an exception. -/
theorem C73_py_exponent_error (data ref : ArrArg ℝ) (maximise : List Bool) (p : ℝ) (h : p ≤ 0) : pyAvgHausdorff data ref maximise p = .error := if_pos h

/-! ### R -/

/-- `maximise` is repeated, or cut, to one value per objective. -/
def Recycled (n : ℕ) (maximise : List Bool) (mx : ℕ → Bool) : Prop := ∀ k < n, maximise[k % maximise.length]? = some (mx k)

/-- One value, or one value per objective, is a special case. -/
theorem PerObjective.recycled {n : ℕ} {maximise : List Bool} {mx : ℕ → Bool} (h : PerObjective n maximise mx) : Recycled n maximise mx := by
  intro k hk
  rw [← h.2 k hk]
  congr 1
  split_ifs with h1
  · rw [h1]; exact Nat.mod_one k
  · exact Nat.mod_eq_of_lt ((h.1.resolve_left h1).symm ▸ hk)

theorem asDoubleMatrix_mat {n k : ℕ} {t : ℕ → ℕ → ℝ} (hn : 1 ≤ n) (hk : 2 ≤ k) : asDoubleMatrix (.mat n k t) = some (n, k, t) := by
  simp only [asDoubleMatrix, if_neg (show ¬ n < 1 by omega), if_neg (show ¬ k < 2 by omega)]

/-- **C73, R.** The same for matrices with at least one row and two columns; a vector `maximise` is repeated or cut. -/
theorem C73_r_indicator (f : QualityIndicator) (A R : ℕ → ℕ → ℝ) (nobj nA nR : ℕ) (maximise : List Bool) (mx : ℕ → Bool)
    (hd : 2 ≤ nobj) (hA : 1 ≤ nA) (hR : 1 ≤ nR) (hm : Recycled nobj maximise mx)
    (hdef : IndicatorDefined nobj A nA R nR f) (hp : ExponentFits f) :
    ∃ v : ℝ, rIndicator f (.mat nA nobj A) (.mat nR nobj R) maximise = .value (fin v) ∧ IsIndicator nobj mx A nA R nR f v := by
  have hl : maximise.length ≠ 0 := by
    intro h
    have := hm 0 (by omega)
    rw [List.length_eq_zero_iff.1 h] at this
    simp at this
  obtain ⟨v, e, hv⟩ := callMetric_spec f A R nobj nA nR (fun k => maximise.getD (k % maximise.length) false) (by omega) hA hR hdef
  refine ⟨v, ?_, hv.congr (fun _ _ _ _ => rfl) (fun k hk => by simp [List.getD_eq_getElem?_getD, hm k hk])⟩
  rw [rIndicator_eq f _ _ _ hp]
  unfold rUnary
  simp only [asDoubleMatrix_mat hA hd, asDoubleMatrix_mat hR hd, ne_eq, not_true_eq_false, if_false, hl, e]

/-- **C73, R, errors.** With a `maximise` that is not empty, there is an error if and only if an argument is not a matrix with at least one row and two columns, the numbers of columns differ,
or `epsilon_mult` is given a value that is not positive. -/
theorem C73_r_error (f : QualityIndicator) (data ref : ArrArg ℝ) (maximise : List Bool) (hp : ∀ p, f = .avgHausdorff p → 1 ≤ p) (hp' : ExponentFits f) (hm : maximise ≠ []) :
    rIndicator f data ref maximise = .error ↔
      ¬ ∃ nobj nA A nR R, 2 ≤ nobj ∧ 1 ≤ nA ∧ 1 ≤ nR ∧ data = .mat nA nobj A ∧ ref = .mat nR nobj R ∧ IndicatorDefined nobj A nA R nR f := by
  constructor
  · rintro h ⟨nobj, nA, A, nR, R, hd, hA, hR, rfl, rfl, hdef⟩
    have hl : 0 < maximise.length := List.length_pos_iff.2 hm
    obtain ⟨v, e, -⟩ := C73_r_indicator f A R nobj nA nR maximise (fun k => maximise.getD (k % maximise.length) false) hd hA hR (by
      intro k hk
      have : k % maximise.length < maximise.length := Nat.mod_lt _ hl
      simp [List.getElem?_eq_getElem this]) hdef hp'
    rw [e] at h
    simp at h
  · intro h
    rw [rIndicator_eq f _ _ _ hp']
    unfold rUnary
    have hn : ∀ x : ArrArg ℝ, asDoubleMatrix x = none ∨ ∃ n k t, 1 ≤ n ∧ 2 ≤ k ∧ x = .mat n k t ∧ asDoubleMatrix x = some (n, k, t) := by
      intro x
      cases x with
      | vec l => exact Or.inl rfl
      | mat n k t =>
        by_cases h1 : n < 1
        · exact Or.inl (by simp [asDoubleMatrix, h1])
        · by_cases h2 : k < 2
          · exact Or.inl (by simp [asDoubleMatrix, h2])
          · exact Or.inr ⟨n, k, t, by omega, by omega, rfl, asDoubleMatrix_mat (by omega) (by omega)⟩
    rcases hn data with hd | ⟨nA, nobj, A, hA, hd, rfl, e1⟩
    · rw [hd]
    rcases hn ref with hr | ⟨nR, nobj', R, hR, hd', rfl, e2⟩
    · rw [hr, e1]
    simp only [e1, e2]
    by_cases hc : nobj' = nobj
    · subst hc
      have hnd : ¬ IndicatorDefined nobj' A nA R nR f := fun hdef => h ⟨nobj', nA, A, nR, R, hd, hA, hR, rfl, rfl, hdef⟩
      simp only [ne_eq, not_true_eq_false, if_false, List.length_eq_zero_iff, hm]
      cases f with
      | epsilonMult =>
        simp only [IndicatorDefined, not_and_or] at hnd
        push Not at hnd
        have := (C18_epsilon_mult_error_iff A R nobj' nA nR (fun k => maximise.getD (k % maximise.length) false) hA hR).2 hnd
        simp only [QualityIndicator.metric, callMetric, this]
      | avgHausdorff p => exact absurd (hp p rfl) hnd
      | _ => exact absurd trivial hnd
    · simp only [ne_eq, hc, not_false_eq_true, if_true]

/-- **C73.** The two packages return the same value for the same arguments (matrices with at least one row and two columns, one direction or one per objective). -/
theorem C73_py_r_agree (f : QualityIndicator) (A R : ℕ → ℕ → ℝ) (nobj nA nR : ℕ) (maximise : List Bool)
    (hd : 2 ≤ nobj) (hA : 1 ≤ nA) (hR : 1 ≤ nR) (hm : maximise.length = 1 ∨ maximise.length = nobj) (hdef : IndicatorDefined nobj A nA R nR f) (hp : ExponentFits f) :
    ∃ v : ℝ, pyIndicator f (.mat nA nobj A) (.mat nR nobj R) maximise = .value (fin v) ∧ rIndicator f (.mat nA nobj A) (.mat nR nobj R) maximise = .value (fin v) := by
  obtain ⟨mx, hmx⟩ := exists_perObjective maximise nobj hm
  obtain ⟨v, e, hv⟩ := C73_py_indicator_partial f A R nobj nA nR (.mat nR nobj R) maximise mx (by omega) hA hR (Or.inl rfl) hmx hdef hp
  obtain ⟨w, e', hw⟩ := C73_r_indicator f A R nobj nA nR maximise mx hd hA hR hmx.recycled hdef hp
  have : v = w := hv.unique hw
  exact ⟨v, e, this ▸ e'⟩

/-! ### Non-vacuity -/

/-- Python: one point as a vector, one direction for both objectives. -/
example : ∃ v : ℝ, pyEpsilonMult (.mat 2 2 (fun i k => if i = k then 3 else 1)) (.vec [1, 2]) [false] = .value (fin v) ∧
    IsIndicator 2 (fun _ => false) (fun i k => if i = k then 3 else 1) 2 (fun _ k => if k = 0 then 1 else 2) 1 .epsilonMult v := by
  refine C73_py_indicator_partial .epsilonMult _ _ 2 2 1 (.vec [1, 2]) [false] (fun _ => false) (by norm_num) (by norm_num) (by norm_num) ?_ ?_ ?_ trivial
  · refine Or.inr ⟨rfl, _, rfl, rfl, rfl, fun k hk => ?_⟩
    rcases k with _ | _ | k
    · rfl
    · rfl
    · omega
  · exact ⟨Or.inl rfl, fun k _ => rfl⟩
  · refine ⟨fun a _ d _ => ?_, fun r _ d _ => ?_⟩
    · dsimp only; split_ifs <;> norm_num
    · dsimp only; split_ifs <;> norm_num

/-- R: three objectives and two directions, which are repeated. -/
example : ∃ v : ℝ, rAvgHausdorff (.mat 1 3 (fun _ k => k)) (.mat 2 3 (fun i k => i + k)) [true, false] 2 = .value (fin v) ∧
    IsIndicator 3 (fun k => decide (k % 2 = 0)) (fun _ k => (k : ℝ)) 1 (fun i k => (i : ℝ) + k) 2 (.avgHausdorff 2) v := by
  refine C73_r_indicator (.avgHausdorff 2) _ _ 3 1 2 [true, false] _ (by norm_num) (by norm_num) (by norm_num) (fun k hk => ?_) (by simp [IndicatorDefined]) (by simp [ExponentFits])
  rcases k with _ | _ | _ | k
  · rfl
  · rfl
  · rfl
  · omega

/-- The points (0,0) and (5,5), whose distance is not 1, with exponent 1/2. -/
example : pyAvgHausdorff (.mat 1 2 (fun _ _ => 0)) (.mat 1 2 (fun _ _ => 5)) [false] (1 / 2) = .value (fin 1) :=
  C73_false_small_exponent (fun _ _ => 0) (fun _ _ => 5) 2 1 1 [false] (Or.inl rfl) (by norm_num) (by norm_num) (1 / 2) (by norm_num) (by norm_num)

end Moo
