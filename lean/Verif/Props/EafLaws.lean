import Verif.Props.RSurfaces
import Verif.Props.EafDiff
import Verif.Props.DomLaws

/-!
# C86: laws of the empirical attainment function and of the differences of two of them
-/

set_option autoImplicit false
set_option linter.unusedSectionVars false

namespace Moo

/-- A row with the function `g k` applied to entry `k`. -/
def mapRow (nobj : ℕ) (g : ℕ → ℝ → ℝ) (row : List ℝ) : List ℝ := (List.range nobj).map (fun k => g k (row.getD k 0))

/-- The same percentiles, and for each the same points, moved by `f`; the order of the points of a surface may differ. -/
def SurfacesAgree (f : List ℝ → List ℝ) (S S' : List (ℝ × List (List ℝ))) : Prop := List.Forall₂ (fun s s' => s'.1 = s.1 ∧ s'.2.Perm (s.2.map f)) S S'

/-- Row `p` with label `u` occurs in the labelled table. -/
def HasLabelled {L : Type*} (nobj : ℕ) (x : ℕ → ℕ → ℝ) (labels : List L) (u : L) (p : ℕ → ℝ) : Prop := ∃ k, labels[k]? = some u ∧ ∀ d < nobj, x k d = p d

section

theorem surfacePercentiles_unique {given : Option (List ℝ)} {n : ℕ} {ps qs : List ℝ} (h1 : SurfacePercentiles given n ps) (h2 : SurfacePercentiles given n qs) : ps = qs := by
  cases given with
  | none =>
    have e1 : ps = _ := h1
    have e2 : qs = _ := h2
    rw [e1, e2]
  | some l =>
    obtain ⟨a1, a2⟩ := h1
    obtain ⟨b1, b2⟩ := h2
    have hp : ps.Perm qs := (List.perm_ext_iff_of_nodup (a1.imp (fun h => ne_of_lt h)) (b1.imp (fun h => ne_of_lt h))).2 fun p => by rw [a2, b2]
    exact hp.eq_of_pairwise (fun a b _ _ h h' => absurd (lt_trans h h') (lt_irrefl _)) a1 b1

theorem surfacesAgree_of {tol : ℝ} {dim n : ℕ} {best best' : ℕ → (ℕ → ℝ) → Prop} {given : Option (List ℝ)} {S S' : List (ℝ × List (List ℝ))} {f : List ℝ → List ℝ}
    (h : IsSurfaces tol dim n best given S) (h' : IsSurfaces tol dim n best' given S')
    (hinj : ∀ z w : ℕ → ℝ, f ((List.range dim).map z) = f ((List.range dim).map w) → (List.range dim).map z = (List.range dim).map w)
    (hbest : ∀ k row, 1 ≤ k → k ≤ n → ((∃ z, best' k z ∧ row = (List.range dim).map z) ↔ ∃ z, best k z ∧ row = f ((List.range dim).map z))) : SurfacesAgree f S S' := by
  have hps : S.map Prod.fst = S'.map Prod.fst := surfacePercentiles_unique h.1 h'.1
  have hlen : S.length = S'.length := by simpa using congrArg List.length hps
  unfold SurfacesAgree
  rw [List.forall₂_iff_get]
  refine ⟨hlen, fun i hi hi' => ?_⟩
  have e : (S'.get ⟨i, hi'⟩).1 = (S.get ⟨i, hi⟩).1 := by
    have := congrArg (fun l => l[i]?) hps
    simpa [hi, hi'] using this.symm
  refine ⟨e, ?_⟩
  obtain ⟨-, n1, k, l1, m1⟩ := h.2 _ (List.get_mem S ⟨i, hi⟩)
  obtain ⟨-, n2, k', l2, m2⟩ := h'.2 _ (List.get_mem S' ⟨i, hi'⟩)
  rw [e] at l2
  have hk := leastLevel_unique l1 l2
  subst hk
  have hnd : ((S.get ⟨i, hi⟩).2.map f).Nodup := by
    refine List.Nodup.map_on ?_ n1
    intro a ha b hb hab
    obtain ⟨z, -, rfl⟩ := (m1 a).1 ha
    obtain ⟨w, -, rfl⟩ := (m1 b).1 hb
    exact hinj z w hab
  refine (List.perm_ext_iff_of_nodup n2 hnd).2 fun row => ?_
  rw [m2, hbest k row l1.1 l1.2.1, List.mem_map]
  constructor
  · rintro ⟨z, hz, rfl⟩
    exact ⟨_, (m1 _).2 ⟨z, hz, rfl⟩, rfl⟩
  · rintro ⟨a, ha, rfl⟩
    obtain ⟨z, hz, rfl⟩ := (m1 a).1 ha
    exact ⟨z, hz, rfl⟩

variable {L : Type*} [LinearOrder L] [Inhabited L]

/-- The direction of an objective that is reversed or not. -/
def revMax (rev maximise : ℕ → Bool) : ℕ → Bool := fun k => if rev k then !maximise k else maximise k

theorem asGood_rev {rev m : Bool} {g : ℝ → ℝ} (hg : if rev then StrictAnti g else StrictMono g) (a b : ℝ) : AsGood (if rev then !m else m) (g a) (g b) ↔ AsGood m a b := by
  unfold AsGood
  cases rev <;> cases m <;> simp_all [StrictMono.le_iff_le, StrictAnti.le_iff_ge]

theorem labelCount_rev {nobj : ℕ} {maximise rev : ℕ → Bool} {g : ℕ → ℝ → ℝ} (hg : ∀ k < nobj, if rev k then StrictAnti (g k) else StrictMono (g k)) (x : ℕ → ℕ → ℝ) (labels : List L) (z : ℕ → ℝ) :
    labelCount (revMax rev maximise) (fun i k => g k (x i k)) labels nobj (fun k => g k (z k)) = labelCount maximise x labels nobj z := by
  classical
  unfold labelCount
  congr 1
  refine Finset.filter_congr fun u _ => ?_
  unfold LabelAttains
  exact exists_congr fun k => and_congr_right fun _ => forall_congr' fun d => forall_congr' fun hd => asGood_rev (hg d hd) _ _

theorem injective_of_rev {rev : Bool} {g : ℝ → ℝ} (hg : if rev then StrictAnti g else StrictMono g) : Function.Injective g := by
  cases rev
  · exact StrictMono.injective (by simpa using hg)
  · exact StrictAnti.injective (by simpa using hg)

theorem bestForLabels_rev {nobj : ℕ} {maximise rev : ℕ → Bool} {g : ℕ → ℝ → ℝ} (hg : ∀ k < nobj, if rev k then StrictAnti (g k) else StrictMono (g k))
    (hs : ∀ k < nobj, Function.Surjective (g k)) (x : ℕ → ℕ → ℝ) (labels : List L) (k : ℕ) (z : ℕ → ℝ) :
    BestForLabels (revMax rev maximise) (fun i k => g k (x i k)) labels nobj k (fun k => g k (z k)) ↔ BestForLabels maximise x labels nobj k z := by
  unfold BestForLabels
  rw [labelCount_rev hg]
  refine and_congr_right fun _ => ?_
  constructor
  · intro h w hw hwz d hd
    refine injective_of_rev (hg d hd) (h (fun k => g k (w k)) (by rw [labelCount_rev hg]; exact hw) (fun d hd => (asGood_rev (hg d hd) _ _).2 (hwz d hd)) d hd)
  · intro h w hw hwz d hd
    classical
    have hex : ∃ w' : ℕ → ℝ, ∀ d < nobj, g d (w' d) = w d := by
      refine ⟨fun d => if h : d < nobj then (hs d h (w d)).choose else 0, fun d hd => ?_⟩
      simp only [hd, dif_pos]
      exact (hs d hd (w d)).choose_spec
    obtain ⟨w', hw'⟩ := hex
    rw [← hw' d hd]
    congr 1
    refine h w' ?_ (fun d hd => ?_) d hd
    · rw [← labelCount_rev hg (rev := rev) (maximise := maximise), labelCount_congr (z' := w) _ _ _ _ hw']
      exact hw
    · have := hwz d hd
      rw [← hw' d hd] at this
      exact (asGood_rev (hg d hd) _ _).1 this

theorem mapRow_range (nobj : ℕ) (g : ℕ → ℝ → ℝ) (z : ℕ → ℝ) : mapRow nobj g ((List.range nobj).map z) = (List.range nobj).map (fun k => g k (z k)) := by
  unfold mapRow
  refine List.map_congr_left fun k hk => ?_
  rw [List.mem_range] at hk
  simp [List.getD_eq_getElem?_getD, hk]

theorem map_range_inj {nobj : ℕ} {z w : ℕ → ℝ} : (List.range nobj).map z = (List.range nobj).map w ↔ ∀ d < nobj, z d = w d := by
  rw [List.map_inj_left]
  simp

/-- **C86, change of units.** Put the values of every objective through a strictly increasing function of the real line onto itself, or through a strictly decreasing one and exchange
minimisation and maximisation: the surfaces that `eaf` returns have the same percentiles, and their points are the points of the original surfaces put through the same functions. -/
theorem C86_eaf_change_of_units {el : EafLib ℝ L} (hel : EafLibOk el) (hord : ∀ labels, IsOrder labels (el.order labels)) {nobj : ℕ} (maximise : ℕ → Bool) {x : ℕ → ℕ → ℝ} {labels : List L}
    (hn : labels ≠ []) (rev : ℕ → Bool) (g : ℕ → ℝ → ℝ) (hg : ∀ k < nobj, if rev k then StrictAnti (g k) else StrictMono (g k)) (hs : ∀ k < nobj, Function.Surjective (g k))
    (hr : EafRange el nobj (transformMax maximise x) labels.length) (hr' : EafRange el nobj (transformMax (revMax rev maximise) (fun i k => g k (x i k))) labels.length) :
    ∃ N, ∀ fuel, N ≤ fuel → ∀ percentiles : Option (List ℝ), (∀ l ∈ percentiles, ∀ p ∈ l, 0 ≤ p ∧ p ≤ 100) → ∃ S S',
      rEaf { el with fuel := fuel } nobj maximise x labels percentiles = .value (surfaceRows S) ∧
      rEaf { el with fuel := fuel } nobj (revMax rev maximise) (fun i k => g k (x i k)) labels percentiles = .value (surfaceRows S') ∧ SurfacesAgree (mapRow nobj g) S S' := by
  obtain ⟨N, hN⟩ := C79_eaf hel hord maximise hn hr
  obtain ⟨N', hN'⟩ := C79_eaf hel hord (revMax rev maximise) hn hr'
  refine ⟨max N N', fun fuel hf percentiles hp => ?_⟩
  obtain ⟨S, e, h⟩ := hN fuel (le_trans (le_max_left _ _) hf) percentiles hp
  obtain ⟨S', e', h'⟩ := hN' fuel (le_trans (le_max_right _ _) hf) percentiles hp
  refine ⟨S, S', e, e', surfacesAgree_of h h' (fun z w => ?_) (fun k row _ _ => ?_)⟩
  · rw [mapRow_range, mapRow_range, map_range_inj, map_range_inj]
    exact fun hzw d hd => injective_of_rev (hg d hd) (hzw d hd)
  · constructor
    · rintro ⟨z, hz, rfl⟩
      classical
      refine ⟨fun d => if h : d < nobj then (hs d h (z d)).choose else 0, ?_, ?_⟩
      · rw [← bestForLabels_rev hg hs]
        have : ∀ d < nobj, z d = g d (if h : d < nobj then (hs d h (z d)).choose else 0) := by
          intro d hd
          rw [dif_pos hd]
          exact (hs d hd (z d)).choose_spec.symm
        exact (bestForLabels_congr _ _ _ _ _ this).1 hz
      · rw [mapRow_range, map_range_inj]
        intro d hd
        rw [dif_pos hd]
        exact (hs d hd (z d)).choose_spec.symm
    · rintro ⟨z, hz, rfl⟩
      exact ⟨fun k => g k (z k), (bestForLabels_rev hg hs x labels k z).2 hz, mapRow_range _ _ _⟩

theorem labelAttains_iff_has {nobj : ℕ} {maximise : ℕ → Bool} {x : ℕ → ℕ → ℝ} {labels : List L} {u : L} {z : ℕ → ℝ} :
    LabelAttains maximise x labels nobj u z ↔ ∃ p, HasLabelled nobj x labels u p ∧ ∀ d < nobj, AsGood (maximise d) (p d) (z d) := by
  constructor
  · rintro ⟨k, h1, h2⟩
    exact ⟨x k, ⟨k, h1, fun _ _ => rfl⟩, h2⟩
  · rintro ⟨p, ⟨k, h1, h2⟩, h3⟩
    exact ⟨k, h1, fun d hd => by rw [h2 d hd]; exact h3 d hd⟩

/-- **C86, order of the rows, copies of rows and names of the sets.** If two tables have the same points in every set, up to a renaming `f` of the sets that gives different sets different
names, then `eaf` returns the same percentiles and the same points for both. -/
theorem C86_eaf_labelled_points {el : EafLib ℝ L} (hel : EafLibOk el) (hord : ∀ labels, IsOrder labels (el.order labels)) {nobj : ℕ} (maximise : ℕ → Bool) {x x' : ℕ → ℕ → ℝ} {labels labels' : List L}
    (hn : labels ≠ []) (f : L → L) (hf : Set.InjOn f {u | u ∈ labels}) (hsets : ∀ v, v ∈ labels' ↔ ∃ u ∈ labels, f u = v)
    (hpts : ∀ u ∈ labels, ∀ p, HasLabelled nobj x labels u p ↔ HasLabelled nobj x' labels' (f u) p)
    (hr : EafRange el nobj (transformMax maximise x) labels.length) (hr' : EafRange el nobj (transformMax maximise x') labels'.length) :
    ∃ N, ∀ fuel, N ≤ fuel → ∀ percentiles : Option (List ℝ), (∀ l ∈ percentiles, ∀ p ∈ l, 0 ≤ p ∧ p ≤ 100) → ∃ S S',
      rEaf { el with fuel := fuel } nobj maximise x labels percentiles = .value (surfaceRows S) ∧
      rEaf { el with fuel := fuel } nobj maximise x' labels' percentiles = .value (surfaceRows S') ∧ SurfacesAgree id S S' := by
  classical
  have hfin : labels'.toFinset = labels.toFinset.image f := by
    ext v
    simp [hsets]
  have hinj : Set.InjOn f (labels.toFinset : Set L) := fun a ha b hb => hf (by simpa using ha) (by simpa using hb)
  have hcard : labels'.toFinset.card = labels.toFinset.card := by
    rw [hfin, Finset.card_image_of_injOn hinj]
  have hcount : ∀ z, labelCount maximise x' labels' nobj z = labelCount maximise x labels nobj z := by
    intro z
    unfold labelCount
    rw [hfin, Finset.filter_image, Finset.card_image_of_injOn (hinj.mono (fun a ha => by
      have := (Finset.mem_filter.1 (Finset.mem_coe.1 ha)).1
      exact this))]
    congr 1
    refine Finset.filter_congr fun u hu => ?_
    rw [labelAttains_iff_has, labelAttains_iff_has]
    exact exists_congr fun p => and_congr_left fun _ => (hpts u (by simpa using hu) p).symm
  have hbest : ∀ k z, BestForLabels maximise x' labels' nobj k z ↔ BestForLabels maximise x labels nobj k z := by
    intro k z
    unfold BestForLabels
    simp only [hcount]
  have hn' : labels' ≠ [] := by
    obtain ⟨u, hu⟩ := List.exists_mem_of_ne_nil labels hn
    exact List.ne_nil_of_mem ((hsets (f u)).2 ⟨u, hu, rfl⟩)
  obtain ⟨N, hN⟩ := C79_eaf hel hord maximise hn hr
  obtain ⟨N', hN'⟩ := C79_eaf hel hord maximise hn' hr'
  refine ⟨max N N', fun fuel hfu percentiles hp => ?_⟩
  obtain ⟨S, e, h⟩ := hN fuel (le_trans (le_max_left _ _) hfu) percentiles hp
  obtain ⟨S', e', h'⟩ := hN' fuel (le_trans (le_max_right _ _) hfu) percentiles hp
  rw [hcard] at h'
  exact ⟨S, S', e, e', surfacesAgree_of h h' (fun z w h => h) (fun k row _ _ => by simp only [hbest, id])⟩

/-- **C86, the surface attained by one set.** The surface of a percentile that asks for one set only, of all the sets together, has the points that `filter_dominated` keeps of all the rows of the table.
In particular every surface of a table with a single set is its nondominated points. -/
theorem C86_eaf_first_surface {el : EafLib ℝ L} (hel : EafLibOk el) (hord : ∀ labels, IsOrder labels (el.order labels)) {lib : DomLib ℝ} (hlib : DomLibOk lib) {nobj : ℕ} (maximise : List Bool)
    (mx : ℕ → Bool) (hm : PerObjective nobj maximise mx) {x : ℕ → ℕ → ℝ} {labels : List L} (hn : labels ≠ []) (hr : EafRange el nobj (transformMax mx x) labels.length) :
    ∃ N, ∀ fuel, N ≤ fuel → ∀ percentiles : Option (List ℝ), (∀ l ∈ percentiles, ∀ p ∈ l, 0 ≤ p ∧ p ≤ 100) → ∃ S rows,
      rEaf { el with fuel := fuel } nobj mx x labels percentiles = .value (surfaceRows S) ∧
      rFilterDominated lib (.mat labels.length nobj x) maximise false = .value rows ∧
      ∀ s ∈ S, s.1 * labels.toFinset.card ≤ 100 → s.2.Perm (rows.map (fun r => (List.range nobj).map r)) := by
  classical
  have hlen : 1 ≤ labels.length := List.length_pos_iff.2 hn
  have hd2 := hr.two_le
  obtain ⟨mask, hmask, -, hrows⟩ := C74_r_filter_dominated hlib x labels.length nobj hlen hd2 maximise mx (perObjective_recycledTo hm) false
  obtain ⟨N, hN⟩ := C79_eaf hel hord mx hn hr
  refine ⟨N, fun fuel hfu percentiles hp => ?_⟩
  obtain ⟨S, e, h⟩ := hN fuel hfu percentiles hp
  refine ⟨S, _, e, hrows, fun s hsS h1 => ?_⟩
  obtain ⟨-, nd, k, hk, hmem⟩ := h.2 s hsS
  have hcard : 1 ≤ labels.toFinset.card := by rw [← nSets_eq_card]; exact nSets_pos hn
  have hk1 : k = 1 := by
    have hn0 : (0 : ℝ) < labels.toFinset.card := by exact_mod_cast hcard
    have : k ≤ 1 := hk.2.2.2 1 le_rfl (by
      rw [le_div_iff₀ hn0]
      have := hel.tol_nonneg
      push_cast
      linarith)
    have := hk.1
    omega
  subst hk1
  -- the best vectors of level 1
  have hcount : ∀ z, 1 ≤ labelCount mx x labels nobj z ↔ ∃ i < labels.length, WeakDom nobj mx (x i) z := by
    intro z
    unfold labelCount
    rw [Finset.one_le_card]
    constructor
    · rintro ⟨u, hu⟩
      obtain ⟨k, hk, hd⟩ := (Finset.mem_filter.1 hu).2
      exact ⟨k, (List.getElem?_eq_some_iff.1 hk).1, fun d hdn => hd d hdn⟩
    · rintro ⟨i, hi, hd⟩
      exact ⟨labels[i], Finset.mem_filter.2 ⟨by simp, i, by simp [hi], fun d hdn => hd d hdn⟩⟩
  have hbest : ∀ z, BestForLabels mx x labels nobj 1 z ↔ ∃ i < labels.length, Nondominated nobj labels.length mx x i ∧ SameVec nobj (x i) z := by
    intro z
    unfold BestForLabels
    constructor
    · rintro ⟨h1, h2⟩
      obtain ⟨i, hi, hw⟩ := (hcount z).1 h1
      have hsame : SameVec nobj (x i) z := h2 (x i) ((hcount _).2 ⟨i, hi, weakDom_refl _ _ _⟩) hw
      refine ⟨i, hi, fun j hj hdom => ?_, hsame⟩
      rw [dom_iff] at hdom
      have hj2 : SameVec nobj (x j) z := h2 (x j) ((hcount _).2 ⟨j, hj, weakDom_refl _ _ _⟩) (fun d hd => by
        have := hdom.1 d hd
        rw [← hsame d hd]
        exact this)
      exact hdom.2 (fun d hd => by rw [hsame d hd, hj2 d hd]; unfold AtLeastAsGood; simp)
    · rintro ⟨i, hi, hnd, hsame⟩
      refine ⟨(hcount z).2 ⟨i, hi, fun d hd => by rw [hsame d hd]; unfold AtLeastAsGood; simp⟩, fun w hw hwz d hd => ?_⟩
      obtain ⟨j, hj, hjw⟩ := (hcount w).1 hw
      have hji : WeakDom nobj mx (x j) (x i) := fun d hd => by
        have a := hjw d hd
        have b := hwz d hd
        rw [← hsame d hd] at b
        unfold AtLeastAsGood at *
        unfold AsGood at b
        split at a <;> simp_all <;> linarith
      have hij : WeakDom nobj mx (x i) (x j) := by
        by_contra hcon
        exact hnd j hj ((dom_iff nobj mx _ _).2 ⟨hji, hcon⟩)
      have a := hjw d hd
      have b := hwz d hd
      have c := hij d hd
      rw [← hsame d hd] at b ⊢
      unfold AtLeastAsGood at a c
      unfold AsGood at b
      cases hmd : mx d <;> simp only [hmd, Bool.false_eq_true, if_false, if_true] at a b c
      · exact le_antisymm b (c.trans a)
      · exact le_antisymm (a.trans c) b
  obtain ⟨m1, m2, m3⟩ := hmask
  have hmm : ∀ i, i ∈ (List.range labels.length).filter (fun i => mask[i]? = some true) ↔ i < labels.length ∧ mask[i]? = some true := by
    intro i
    simp
  have hnd2 : ((keptRows labels.length x mask).map (fun r => (List.range nobj).map r)).Nodup := by
    unfold keptRows
    rw [List.map_map]
    refine List.Nodup.map_on ?_ (List.nodup_range.filter _)
    intro i hi j hj hij
    obtain ⟨hi1, hi2⟩ := (hmm i).1 hi
    obtain ⟨hj1, hj2⟩ := (hmm j).1 hj
    have hij' : ∀ d < nobj, x i d = x j d := map_range_inj.1 hij
    have hu := m3 i hi1 (m2 i hi1 hi2)
    rw [if_neg (by simp)] at hu
    obtain ⟨w, -, hw⟩ := hu
    rw [hw i ⟨hi1, hi2, fun d _ => rfl⟩, hw j ⟨hj1, hj2, fun d hd => (hij' d hd).symm⟩]
  refine (List.perm_ext_iff_of_nodup nd hnd2).2 fun row => ?_
  rw [hmem, List.mem_map]
  unfold keptRows
  constructor
  · rintro ⟨z, hz, rfl⟩
    obtain ⟨i, hi, hnd, hsame⟩ := (hbest z).1 hz
    have hu := m3 i hi hnd
    rw [if_neg (by simp)] at hu
    obtain ⟨j, ⟨hj1, hj2, hj3⟩, -⟩ := hu
    exact ⟨x j, List.mem_map.2 ⟨j, (hmm j).2 ⟨hj1, hj2⟩, rfl⟩, map_range_inj.2 fun d hd => (hj3 d hd).trans (hsame d hd)⟩
  · rintro ⟨r, hr, rfl⟩
    obtain ⟨i, hi, rfl⟩ := List.mem_map.1 hr
    obtain ⟨hi1, hi2⟩ := (hmm i).1 hi
    exact ⟨x i, (hbest _).2 ⟨i, hi1, m2 i hi1 hi2, fun _ _ => rfl⟩, rfl⟩

end

section diff
variable {K : Type*} [Field K] [LinearOrder K] [IsStrictOrderedRing K] {L : Type*} [LinearOrder L] [Inhabited L]
variable {maximise : ℕ → Bool} {dx dy : ℕ → ℕ → K} {lx ly : List L} {ox oy sx sy sx' sy' : List ℕ} {fuel s : ℕ}

theorem eafDifference_exchange (dim intervals : ℕ) (z : ℕ → K) : eafDifference maximise dy ly dx lx dim intervals z = -eafDifference maximise dx lx dy ly dim intervals z := by
  unfold eafDifference
  ring

theorem bestForPair_swap (dim k : ℕ) (z : ℕ → K) : BestForPair maximise dy ly dx lx dim k z ↔ BestForPair maximise dx lx dy ly dim k z := by
  unfold BestForPair pairCount
  simp only [Nat.add_comm]

/-- **C86, exchange of the two data sets.** `eafdiff` of the same data sets in the other order returns the same points with the opposite differences. -/
theorem C86_eafdiff_swap (hnx : lx ≠ []) (hny : ly ≠ []) (hcx : lx.toFinset.card = s) (hcy : ly.toFinset.card = s) (hox : IsOrder lx ox) (hoy : IsOrder ly oy)
    (hx : EafSortedX (diffData maximise dx dy lx ox oy) (lx.length + ly.length) sx) (hy : EafSortedY (diffData maximise dx dy lx ox oy) (lx.length + ly.length) sy)
    (hx' : EafSortedX (diffData maximise dy dx ly oy ox) (ly.length + lx.length) sx') (hy' : EafSortedY (diffData maximise dy dx ly oy ox) (ly.length + lx.length) sy')
    (hf : 2 * (lx.length + ly.length) < fuel) (hsize : lx.length + ly.length ≤ 1073741823) (V : EafEnv K) (hV : GrowOk V) (given : Option ℕ) :
    ∃ rows rows', pyEafdiffPoints V maximise dx dy lx ly given ox oy sx sy fuel = some rows ∧ pyEafdiffPoints V maximise dy dx ly lx given oy ox sx' sy' fuel = some rows' ∧
      rows.Nodup ∧ rows'.Nodup ∧ (∀ r ∈ rows, r.length = 3) ∧ ∀ a b v, [a, b, v] ∈ rows ↔ [a, b, -v] ∈ rows' := by
  obtain ⟨rows, e, n1, h⟩ := C61_py_eafdiff_points_partial hnx hny hcx hcy hox hoy hx hy hf hsize V hV given
  obtain ⟨rows', e', n2, h'⟩ := C61_py_eafdiff_points_partial (fuel := fuel) hny hnx hcy hcx hoy hox hx' hy' (by omega) (by omega) V hV given
  refine ⟨rows, rows', e, e', n1, n2, fun r hr => ?_, fun a b v => ?_⟩
  · obtain ⟨k, z, -, -, -, rfl⟩ := (h r).1 hr
    rfl
  · rw [h, h', hcx, hcy]
    refine exists_congr fun k => exists_congr fun z => and_congr_right fun _ => and_congr_right fun _ => ?_
    rw [bestForPair_swap, eafDifference_exchange (dx := dx) (lx := lx)]
    refine and_congr_right fun _ => ?_
    simp

/-- **C86, a data set and itself.** Every difference of a data set and itself is zero, and the points are the points of the surfaces of the data set. -/
theorem C86_eafdiff_self (hnx : lx ≠ []) (hcx : lx.toFinset.card = s) (hox : IsOrder lx ox)
    (hx : EafSortedX (diffData maximise dx dx lx ox ox) (lx.length + lx.length) sx) (hy : EafSortedY (diffData maximise dx dx lx ox ox) (lx.length + lx.length) sy)
    (hf : 2 * (lx.length + lx.length) < fuel) (hsize : lx.length + lx.length ≤ 1073741823) (V : EafEnv K) (hV : GrowOk V) (given : Option ℕ) :
    ∃ rows, pyEafdiffPoints V maximise dx dx lx lx given ox ox sx sy fuel = some rows ∧ rows.Nodup ∧
      ∀ row, row ∈ rows ↔ ∃ k z, 1 ≤ k ∧ BestForLabels maximise dx lx 2 k z ∧ row = [z 0, z 1, 0] := by
  obtain ⟨rows, e, n1, h⟩ := C61_py_eafdiff_points_partial hnx hnx hcx hcx hox hox hx hy hf hsize V hV given
  have hle : ∀ z, labelCount maximise dx lx 2 z ≤ lx.toFinset.card := fun z => by
    classical
    exact Finset.card_le_card (@Finset.filter_subset _ _ (_) _)
  refine ⟨rows, e, n1, fun row => ?_⟩
  rw [h]
  have hdiff : ∀ z, eafDifference maximise dx lx dx lx 2 (min (given.getD s) s) z = 0 := fun z => by unfold eafDifference; ring
  simp only [hdiff]
  have hpair : ∀ k z, BestForPair maximise dx lx dx lx 2 k z ↔ BestForLabels maximise dx lx 2 ((k + 1) / 2) z := by
    intro k z
    have : ∀ w, k ≤ pairCount maximise dx lx dx lx 2 w ↔ (k + 1) / 2 ≤ labelCount maximise dx lx 2 w := by
      intro w
      unfold pairCount
      omega
    unfold BestForPair BestForLabels
    simp only [this]
  constructor
  · rintro ⟨k, z, h1, -, h3, rfl⟩
    exact ⟨(k + 1) / 2, z, by omega, (hpair k z).1 h3, rfl⟩
  · rintro ⟨k, z, h1, h2, rfl⟩
    refine ⟨2 * k, z, by omega, ?_, (hpair _ z).2 ?_, rfl⟩
    · have := h2.1.trans (hle z)
      omega
    · rw [show (2 * k + 1) / 2 = k by omega]
      exact h2

/-- **C86, size of the differences.** No difference exceeds the number of intervals, in either direction. -/
theorem C86_eafdiff_bound (hnx : lx ≠ []) (hny : ly ≠ []) (hcx : lx.toFinset.card = s) (hcy : ly.toFinset.card = s) (hox : IsOrder lx ox) (hoy : IsOrder ly oy)
    (hx : EafSortedX (diffData maximise dx dy lx ox oy) (lx.length + ly.length) sx) (hy : EafSortedY (diffData maximise dx dy lx ox oy) (lx.length + ly.length) sy)
    (hf : 2 * (lx.length + ly.length) < fuel) (hsize : lx.length + ly.length ≤ 1073741823) (V : EafEnv K) (hV : GrowOk V) (given : Option ℕ) :
    ∃ rows, pyEafdiffPoints V maximise dx dy lx ly given ox oy sx sy fuel = some rows ∧ ∀ a b v, [a, b, v] ∈ rows → |v| ≤ ((min (given.getD s) s : ℕ) : K) := by
  obtain ⟨rows, e, -, h⟩ := C61_py_eafdiff_points_partial hnx hny hcx hcy hox hoy hx hy hf hsize V hV given
  refine ⟨rows, e, fun a b v hr => ?_⟩
  obtain ⟨k, z, -, -, -, hrow⟩ := (h _).1 hr
  simp only [List.cons.injEq, and_true] at hrow
  obtain ⟨-, -, rfl⟩ := hrow
  have hle : ∀ (d : ℕ → ℕ → K) (l : List L), labelCount maximise d l 2 z ≤ l.toFinset.card := fun d l => by
    classical
    exact Finset.card_le_card (@Finset.filter_subset _ _ (_) _)
  have hfrac : ∀ (d : ℕ → ℕ → K) (l : List L), l ≠ [] → 0 ≤ (labelCount maximise d l 2 z : K) / (l.toFinset.card : K) ∧ (labelCount maximise d l 2 z : K) / (l.toFinset.card : K) ≤ 1 := by
    intro d l hl
    have hpos : (0 : K) < l.toFinset.card := by
      have : 1 ≤ l.toFinset.card := by rw [← nSets_eq_card]; exact nSets_pos hl
      exact_mod_cast this
    refine ⟨by positivity, (div_le_one hpos).2 ?_⟩
    exact_mod_cast hle d l
  obtain ⟨a1, a2⟩ := hfrac dx lx hnx
  obtain ⟨b1, b2⟩ := hfrac dy ly hny
  unfold eafDifference
  rw [abs_mul, Nat.abs_cast]
  refine mul_le_of_le_one_right (by positivity) ?_
  rw [abs_le]
  constructor <;> linarith

end diff

/-! ### Concrete cases -/

/-- Doubling the first objective and changing the sign of the second meets the hypotheses. -/
example : ∃ el : EafLib ℝ ℤ, EafLibOk el ∧ (∀ labels, IsOrder labels (el.order labels)) ∧
    (∀ k < 2, if (fun k : ℕ => decide (k = 1)) k then StrictAnti ((fun (k : ℕ) (a : ℝ) => if k = 1 then -a else 2 * a) k) else StrictMono ((fun (k : ℕ) (a : ℝ) => if k = 1 then -a else 2 * a) k)) ∧
    (∀ k < 2, Function.Surjective ((fun (k : ℕ) (a : ℝ) => if k = 1 then -a else 2 * a) k)) ∧
    EafRange el 2 (transformMax (fun _ => false) surfExData) ([1, 2, 2] : List ℤ).length := by
  obtain ⟨el, h2, h3, -, -⟩ := exists_eafLib (L := ℤ) 0 0
  refine ⟨el, h2, h3, fun k hk => ?_, fun k hk b => ?_, Or.inl ⟨rfl, by norm_num⟩⟩
  · rcases (show k = 0 ∨ k = 1 by omega) with rfl | rfl
    · simp only [show ¬ ((0 : ℕ) = 1) by omega, decide_false, Bool.false_eq_true, if_false]
      intro a b hab
      show 2 * a < 2 * b
      linarith
    · simp only [decide_true, if_true]
      intro a b hab
      show -b < -a
      linarith
  · rcases (show k = 0 ∨ k = 1 by omega) with rfl | rfl
    · exact ⟨b / 2, by simp only [show ¬ ((0 : ℕ) = 1) by omega, if_false]; ring⟩
    · exact ⟨-b, by simp⟩

/-- A table with its rows reversed, one row doubled and the sets renamed. -/
example : (∀ v, v ∈ ([20, 20, 10, 20] : List ℤ) ↔ ∃ u ∈ ([1, 2, 2] : List ℤ), 10 * u = v) ∧
    ∀ u ∈ ([1, 2, 2] : List ℤ), ∀ p, HasLabelled 2 (fun i k => (i + k : ℝ)) [1, 2, 2] u p ↔
      HasLabelled 2 (fun i k => ((if i = 3 then 2 else 2 - i : ℕ) + k : ℝ)) [20, 20, 10, 20] (10 * u) p := by
  refine ⟨fun v => ?_, fun u hu p => ?_⟩
  · simp
    omega
  · have hu' : u = 1 ∨ u = 2 := by simpa using hu
    constructor
    · rintro ⟨k, hk, h⟩
      have hk3 : k < 3 := (List.getElem?_eq_some_iff.1 hk).1
      refine ⟨2 - k, ?_, fun d hd => ?_⟩
      · rcases (show k = 0 ∨ k = 1 ∨ k = 2 by omega) with rfl | rfl | rfl <;> simp_all <;> omega
      · rw [← h d hd]
        dsimp only
        rw [if_neg (by omega), show 2 - (2 - k) = k by omega]
    · rintro ⟨k, hk, h⟩
      have hk3 : k < 4 := (List.getElem?_eq_some_iff.1 hk).1
      refine ⟨if k = 3 then 2 else 2 - k, ?_, fun d hd => ?_⟩
      · rcases (show k = 0 ∨ k = 1 ∨ k = 2 ∨ k = 3 by omega) with rfl | rfl | rfl | rfl <;> simp_all <;> omega
      · rw [← h d hd]

/-- The two tables of the example of C61, exchanged. -/
example : pyEafdiffPoints labExEnv (fun _ => false) diffExY labExPts [1, 3] labExLabels none [0, 1] [2, 0, 1] [3, 1, 2, 0, 4] [1, 3, 2, 0, 4] 20 =
    some [[1, 5, -1], [3, 3, -1], [4, 2, 1], [5, 1, -1], [2, 6, 0], [3, 5, -2], [4, 3, 0], [5, 2, 0], [3, 6, -1], [4, 5, -1], [5, 3, -1], [4, 6, 0]] := by decide +kernel

end Moo
