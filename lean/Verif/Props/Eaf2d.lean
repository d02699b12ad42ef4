import Verif.Lemmas.Eaf2dSpec
import Verif.Lemmas.EafStore
import Verif.Lemmas.Qsort

/-!
# Properties of the empirical attainment function in two objectives: C23, C24, C25

`sx` and `sy` are any outputs that `qsort` may give; `levels` are the attainment levels.
-/

set_option autoImplicit false
set_option linter.unusedSectionVars false

namespace Moo

open Classical

variable {α : Type*} [LinearOrder α]

/-- The coordinates of the points stored for one level. -/
def eafPoints (out : List (α × α × (ℕ → ℤ))) : List (α × α) := out.map (fun o => (o.1, o.2.1))

theorem attainCount_congr {pts : ℕ → ℕ → α} {cumsize : ℕ → ℕ} {nruns dim : ℕ} {z w : ℕ → α} (h : ∀ d < dim, z d = w d) :
    attainCount pts cumsize nruns dim z = attainCount pts cumsize nruns dim w := by
  unfold attainCount
  congr 1
  apply Finset.filter_congr
  intro r _
  unfold Attains
  constructor
  · rintro ⟨k, h1, h2⟩; exact ⟨k, h1, fun d hd => h d hd ▸ h2 d hd⟩
  · rintro ⟨k, h1, h2⟩; exact ⟨k, h1, fun d hd => (h d hd).symm ▸ h2 d hd⟩

theorem attainCount_vec2 {pts : ℕ → ℕ → α} {cumsize : ℕ → ℕ} {nruns : ℕ} (w : ℕ → α) :
    attainCount pts cumsize nruns 2 w = attainCount pts cumsize nruns 2 (vec2 (w 0) (w 1)) := by
  apply attainCount_congr
  intro d hd
  rcases (by omega : d = 0 ∨ d = 1) with rfl | rfl <;> simp [vec2]

theorem attainCount_mono {pts : ℕ → ℕ → α} {cumsize : ℕ → ℕ} {nruns dim : ℕ} {z w : ℕ → α} (h : ∀ d < dim, z d ≤ w d) :
    attainCount pts cumsize nruns dim z ≤ attainCount pts cumsize nruns dim w := by
  unfold attainCount
  apply Finset.card_le_card
  intro r
  simp only [Finset.mem_filter]
  rintro ⟨h1, k, h2, h3⟩
  exact ⟨h1, k, h2, fun d hd => (h3 d hd).trans (h d hd)⟩

/-- What holds of the points of one level, in terms of the specification. -/
structure EafLevelOk (pts : ℕ → ℕ → α) (cumsize : ℕ → ℕ) (nruns k : ℕ) (out : List (α × α × (ℕ → ℤ))) : Prop where
  chain : out.Pairwise (fun a b => a.1 < b.1 ∧ b.2.1 < a.2.1)
  reached : ∀ o ∈ out, k ≤ attainCount pts cumsize nruns 2 (vec2 o.1 o.2.1)
  bits : ∀ o ∈ out, ∀ r < nruns, o.2.2 r ≠ 0 ↔ Attains pts cumsize 2 r (vec2 o.1 o.2.1)
  cover : ∀ x y, k ≤ attainCount pts cumsize nruns 2 (vec2 x y) → ∃ o ∈ out, o.1 ≤ x ∧ o.2.1 ≤ y

theorem eafLevelOk_of {pts : ℕ → ℕ → α} {cumsize : ℕ → ℕ} {nruns : ℕ} {sx sy : List ℕ} {k fuel : ℕ} (hr : RunsOk cumsize nruns)
    (hx : EafSortedX pts (cumsize (nruns - 1)) sx) (hy : EafSortedY pts (cumsize (nruns - 1)) sy) (hk : 1 ≤ k) (hf : 2 * cumsize (nruns - 1) < fuel) :
    ∃ out, eafLevel (eafInput pts cumsize nruns sx sy k) fuel = some out ∧ EafLevelOk pts cumsize nruns k out := by
  have ok := eafInput_ok hr hx hy (level := (k : ℤ)) (by exact_mod_cast hk)
  obtain ⟨out, h1, h2, h3⟩ := eafLevel_spec ok (fuel := fuel) hr.2.2 hf
  refine ⟨out, h1, h2.chain, ?_, ?_, ?_⟩
  · intro o ho
    have : (k : ℤ) ≤ _ := (h2.att o ho).1
    rw [attainCount_eq (sx := sx) (sy := sy) (level := (k : ℤ)) hr (o.1, o.2.1)]
    exact_mod_cast this
  · intro o ho r hrn
    rw [(h2.att o ho).2 r, attains_iff (sx := sx) (sy := sy) (level := (k : ℤ)) hr hrn (o.1, o.2.1)]
    constructor
    · intro hne
      have : ((eafD (eafInput pts cumsize nruns sx sy k) (o.1, o.2.1)).filter (fun p => (eafInput pts cumsize nruns sx sy k).run p = r)).Nonempty := by
        rw [← Finset.card_pos]; omega
      obtain ⟨p, hp⟩ := this
      rw [Finset.mem_filter] at hp
      exact ⟨p, hp⟩
    · rintro ⟨p, hp⟩
      have : 0 < ((eafD (eafInput pts cumsize nruns sx sy k) (o.1, o.2.1)).filter (fun p => (eafInput pts cumsize nruns sx sy k).run p = r)).card :=
        Finset.card_pos.2 ⟨p, Finset.mem_filter.2 hp⟩
      omega
  · intro x y hxy
    rw [attainCount_eq (sx := sx) (sy := sy) (level := (k : ℤ)) hr (x, y)] at hxy
    exact h3 (x, y) (show (k : ℤ) ≤ _ by exact_mod_cast hxy)

theorem eaf2d_levels {pts : ℕ → ℕ → α} {cumsize : ℕ → ℕ} {nruns : ℕ} {sx sy : List ℕ} {fuel : ℕ} (hr : RunsOk cumsize nruns)
    (hx : EafSortedX pts (cumsize (nruns - 1)) sx) (hy : EafSortedY pts (cumsize (nruns - 1)) sy) (hf : 2 * cumsize (nruns - 1) < fuel)
    (levels : List ℕ) (hl : ∀ k ∈ levels, 1 ≤ k) :
    ∃ res, eaf2d pts cumsize nruns (levels.map Int.ofNat) sx sy fuel = some res ∧ List.Forall₂ (EafLevelOk pts cumsize nruns) levels res := by
  induction levels with
  | nil => exact ⟨[], rfl, List.Forall₂.nil⟩
  | cons k ks ih =>
    obtain ⟨res, h1, h2⟩ := ih (fun k hk => hl k (by simp [hk]))
    obtain ⟨out, h3, h4⟩ := eafLevelOk_of hr hx hy (hl k (by simp)) hf
    refine ⟨out :: res, ?_, List.Forall₂.cons h4 h2⟩
    unfold eaf2d eafInput at *
    rw [List.map_cons, List.mapM_cons, Int.ofNat_eq_natCast, h3, h1]
    rfl

theorem EafLevelOk.points {pts : ℕ → ℕ → α} {cumsize : ℕ → ℕ} {nruns k : ℕ} {out : List (α × α × (ℕ → ℤ))} (h : EafLevelOk pts cumsize nruns k out) :
    (eafPoints out).Nodup ∧ ∀ x y, (x, y) ∈ eafPoints out ↔ MinimalAttained pts cumsize nruns 2 k (vec2 x y) := by
  constructor
  · unfold eafPoints
    rw [List.Nodup, List.pairwise_map]
    refine h.chain.imp ?_
    rintro a b ⟨h1, _⟩ h3
    exact absurd (congrArg Prod.fst h3) h1.ne
  have hchain : ∀ a ∈ out, ∀ b ∈ out, a.1 ≤ b.1 → a.2.1 ≤ b.2.1 → a.1 = b.1 ∧ a.2.1 = b.2.1 := by
    intro a ha b hb h1 h2
    obtain ⟨i, hi, rfl⟩ := List.getElem_of_mem ha
    obtain ⟨j, hj, rfl⟩ := List.getElem_of_mem hb
    rcases lt_trichotomy i j with hij | rfl | hij
    · exact absurd (List.pairwise_iff_getElem.1 h.chain i j hi hj hij).2 h2.not_gt
    · exact ⟨rfl, rfl⟩
    · exact absurd (List.pairwise_iff_getElem.1 h.chain j i hj hi hij).1 h1.not_gt
  intro x y
  unfold eafPoints
  rw [List.mem_map]
  constructor
  · rintro ⟨o, ho, e⟩
    obtain ⟨rfl, rfl⟩ := Prod.mk.inj e
    refine ⟨h.reached o ho, ?_⟩
    intro w hw hle
    rw [attainCount_vec2] at hw
    obtain ⟨o', ho', h1, h2⟩ := h.cover _ _ hw
    have w0 : w 0 ≤ o.1 := by simpa [vec2] using hle 0 (by omega)
    have w1 : w 1 ≤ o.2.1 := by simpa [vec2] using hle 1 (by omega)
    obtain ⟨e1, e2⟩ := hchain o' ho' o ho (h1.trans w0) (h2.trans w1)
    intro d hd
    rcases (by omega : d = 0 ∨ d = 1) with rfl | rfl
    · simpa [vec2] using le_antisymm w0 (e1 ▸ h1)
    · simpa [vec2] using le_antisymm w1 (e2 ▸ h2)
  · rintro ⟨h1, h2⟩
    obtain ⟨o, ho, h3, h4⟩ := h.cover x y h1
    refine ⟨o, ho, ?_⟩
    have := h2 (vec2 o.1 o.2.1) (h.reached o ho) (by
      intro d hd
      rcases (by omega : d = 0 ∨ d = 1) with rfl | rfl
      · simpa [vec2] using h3
      · simpa [vec2] using h4)
    have e0 := this 0 (by omega)
    have e1 := this 1 (by omega)
    simp [vec2] at e0 e1
    rw [e0, e1]

theorem forall₂_get {β γ : Type*} {R : β → γ → Prop} {l : List β} {m : List γ} (h : List.Forall₂ R l m) :
    m.length = l.length ∧ ∀ i (hi : i < l.length) (hi' : i < m.length), R l[i] m[i] := by
  induction h with
  | nil => exact ⟨rfl, fun i hi => absurd hi (by simp)⟩
  | cons h _ ih =>
    refine ⟨by simp [ih.1], ?_⟩
    intro i hi hi'
    cases i with
    | zero => exact h
    | succ i => simpa using ih.2 i (by simpa using hi) (by simpa using hi')

section main
variable {pts : ℕ → ℕ → α} {cumsize : ℕ → ℕ} {nruns : ℕ} {sx sy : List ℕ} {fuel : ℕ}

/-- **C23**: `eaf2d` terminates without an access outside of its arrays, and the points of level `k` are, without repetition, exactly the minimal vectors
attained by at least `k` runs. -/
theorem C23_eaf2d_minimal_points (hr : RunsOk cumsize nruns) (hx : EafSortedX pts (cumsize (nruns - 1)) sx)
    (hy : EafSortedY pts (cumsize (nruns - 1)) sy) (hf : 2 * cumsize (nruns - 1) < fuel) (levels : List ℕ) (hl : ∀ k ∈ levels, 1 ≤ k) :
    ∃ res, eaf2d pts cumsize nruns (levels.map Int.ofNat) sx sy fuel = some res ∧ res.length = levels.length ∧
      ∀ i (hi : i < levels.length) (hi' : i < res.length), (eafPoints res[i]).Nodup ∧
        ∀ x y, (x, y) ∈ eafPoints res[i] ↔ MinimalAttained pts cumsize nruns 2 levels[i] (vec2 x y) := by
  obtain ⟨res, h1, h2⟩ := eaf2d_levels hr hx hy hf levels hl
  obtain ⟨h3, h4⟩ := forall₂_get h2
  exact ⟨res, h1, h3, fun i hi hi' => (h4 i hi hi').points⟩

/-- **C24**: for every point of level `k`, entry `r` of the array of indicators is nonzero iff run `r` attains the point, and at least `k` entries
are nonzero. -/
theorem C24_eaf2d_attained (hr : RunsOk cumsize nruns) (hx : EafSortedX pts (cumsize (nruns - 1)) sx)
    (hy : EafSortedY pts (cumsize (nruns - 1)) sy) (hf : 2 * cumsize (nruns - 1) < fuel) (levels : List ℕ) (hl : ∀ k ∈ levels, 1 ≤ k) :
    ∃ res, eaf2d pts cumsize nruns (levels.map Int.ofNat) sx sy fuel = some res ∧ res.length = levels.length ∧
      ∀ i (hi : i < levels.length) (hi' : i < res.length), ∀ o ∈ res[i],
        (∀ r < nruns, o.2.2 r ≠ 0 ↔ Attains pts cumsize 2 r (vec2 o.1 o.2.1)) ∧
        levels[i] ≤ ((Finset.range nruns).filter (fun r => o.2.2 r ≠ 0)).card := by
  obtain ⟨res, h1, h2⟩ := eaf2d_levels hr hx hy hf levels hl
  obtain ⟨h3, h4⟩ := forall₂_get h2
  refine ⟨res, h1, h3, ?_⟩
  intro i hi hi' o ho
  refine ⟨(h4 i hi hi').bits o ho, ?_⟩
  have := (h4 i hi hi').reached o ho
  unfold attainCount at this
  refine this.trans (le_of_eq ?_)
  congr 1
  apply Finset.filter_congr
  intro r hrn
  exact ((h4 i hi hi').bits o ho r (Finset.mem_range.1 hrn)).symm

/-- **C25**: the points of a level are strictly increasing in the first and strictly decreasing in the second objective; every point of a level
is weakly dominated by a point of every lower level. -/
theorem C25_eaf2d_sorted_nested (hr : RunsOk cumsize nruns) (hx : EafSortedX pts (cumsize (nruns - 1)) sx)
    (hy : EafSortedY pts (cumsize (nruns - 1)) sy) (hf : 2 * cumsize (nruns - 1) < fuel) (levels : List ℕ) (hl : ∀ k ∈ levels, 1 ≤ k) :
    ∃ res, eaf2d pts cumsize nruns (levels.map Int.ofNat) sx sy fuel = some res ∧ res.length = levels.length ∧
      (∀ i (hi : i < res.length), (eafPoints res[i]).Pairwise (fun p q => p.1 < q.1 ∧ q.2 < p.2)) ∧
      ∀ i j (hi : i < levels.length) (hj : j < levels.length) (hi' : i < res.length) (hj' : j < res.length), levels[i] ≤ levels[j] →
        ∀ q ∈ eafPoints res[j], ∃ p ∈ eafPoints res[i], p.1 ≤ q.1 ∧ p.2 ≤ q.2 := by
  obtain ⟨res, h1, h2⟩ := eaf2d_levels hr hx hy hf levels hl
  obtain ⟨h3, h4⟩ := forall₂_get h2
  refine ⟨res, h1, h3, ?_, ?_⟩
  · intro i hi
    unfold eafPoints
    rw [List.pairwise_map]
    exact (h4 i (by omega) hi).chain
  · intro i j hi hj hi' hj' hle q hq
    unfold eafPoints at hq ⊢
    rw [List.mem_map] at hq
    obtain ⟨o, ho, rfl⟩ := hq
    obtain ⟨p, hp, h5⟩ := (h4 i hi hi').cover o.1 o.2.1 (hle.trans ((h4 j hj hj').reached o ho))
    exact ⟨_, List.mem_map.2 ⟨p, hp, rfl⟩, h5⟩

/-- The run `r` has at least one row, for every run. -/
theorem attainCount_top (hr : RunsOk cumsize nruns) (h0 : 0 < cumsize 0) : ∃ x y, attainCount pts cumsize nruns 2 (vec2 x y) = nruns := by
  have hne : (Finset.range (cumsize (nruns - 1))).Nonempty := ⟨0, by simpa using hr.2.2⟩
  refine ⟨(Finset.range (cumsize (nruns - 1))).sup' hne (fun k => pts k 0), (Finset.range (cumsize (nruns - 1))).sup' hne (fun k => pts k 1), ?_⟩
  unfold attainCount
  rw [Finset.filter_true_of_mem, Finset.card_range]
  intro r hrn
  rw [Finset.mem_range] at hrn
  have hex : ∃ k, InRun cumsize r k := by
    cases r with
    | zero => exact ⟨0, fun s hs => by omega, h0⟩
    | succ r =>
      refine ⟨cumsize r, fun s hs => hr.le (by omega) (by omega), hr.2.1 r hrn⟩
  obtain ⟨k, hk⟩ := hex
  have hkn : k < cumsize (nruns - 1) := lt_of_lt_of_le hk.2 (hr.le (by omega) (by have := hr.1; omega))
  refine ⟨k, hk, ?_⟩
  intro d hd
  rcases (by omega : d = 0 ∨ d = 1) with rfl | rfl
  · simpa [vec2] using ⟨k, hkn, le_rfl⟩
  · simpa [vec2] using ⟨k, hkn, le_rfl⟩

/-- Every coordinate of a minimal attained vector is a coordinate of an input point. -/
theorem minimalAttained_coord (hr : RunsOk cumsize nruns) {dim k : ℕ} (hk : 1 ≤ k) {z : ℕ → α} (h : MinimalAttained pts cumsize nruns dim k z) :
    ∀ d < dim, ∃ p < cumsize (nruns - 1), pts p d = z d := by
  have hrow : ∀ r < nruns, ∀ p, InRun cumsize r p → p < cumsize (nruns - 1) := fun r hrn p hp =>
    lt_of_lt_of_le hp.2 (hr.le (by omega) (by have := hr.1; omega))
  let S := (Finset.range (cumsize (nruns - 1))).filter (fun p => ∀ d < dim, pts p d ≤ z d)
  have hS : S.Nonempty := by
    have hpos : 0 < attainCount pts cumsize nruns dim z := by have := h.1; omega
    obtain ⟨r, hr1⟩ := Finset.card_pos.1 hpos
    rw [Finset.mem_filter, Finset.mem_range] at hr1
    obtain ⟨p, h1, h2⟩ := hr1.2
    exact ⟨p, Finset.mem_filter.2 ⟨Finset.mem_range.2 (hrow r hr1.1 p h1), h2⟩⟩
  intro d hd
  obtain ⟨p, hp, e⟩ := Finset.exists_mem_eq_sup' hS (fun p => pts p d)
  refine ⟨p, Finset.mem_range.1 (Finset.mem_filter.1 hp).1, ?_⟩
  have hle : pts p d ≤ z d := (Finset.mem_filter.1 hp).2 d hd
  have := h.2 (fun c => if c = d then pts p d else z c) ?_ ?_ d hd
  · simpa using this
  · refine h.1.trans ?_
    apply Finset.card_le_card
    intro r hr1
    rw [Finset.mem_filter, Finset.mem_range] at hr1 ⊢
    refine ⟨hr1.1, ?_⟩
    obtain ⟨q, h1, h2⟩ := hr1.2
    refine ⟨q, h1, ?_⟩
    intro c hc
    by_cases hcd : c = d
    · subst hcd
      simp only [if_true]
      rw [← e]
      exact Finset.le_sup' (fun p => pts p c) (Finset.mem_filter.2 ⟨Finset.mem_range.2 (hrow r hr1.1 q h1), h2⟩)
    · simp only [if_neg hcd]; exact h2 c hc
  · intro c hc
    split_ifs with hcd
    · subst hcd; exact hle
    · exact le_rfl

/-- A level has at most as many points as the input. -/
theorem EafLevelOk.length_le {k : ℕ} {out : List (α × α × (ℕ → ℤ))} (hr : RunsOk cumsize nruns) (hk : 1 ≤ k)
    (h : EafLevelOk pts cumsize nruns k out) : out.length ≤ cumsize (nruns - 1) := by
  have hnd : (out.map (fun o => o.1)).Nodup := by
    rw [List.Nodup, List.pairwise_map]
    exact h.chain.imp (fun h => h.1.ne)
  have hsub : (out.map (fun o => o.1)).toFinset ⊆ (Finset.range (cumsize (nruns - 1))).image (fun p => pts p 0) := by
    intro x hx
    rw [List.mem_toFinset, List.mem_map] at hx
    obtain ⟨o, ho, rfl⟩ := hx
    have := (h.points.2 o.1 o.2.1).1 (List.mem_map.2 ⟨o, ho, rfl⟩)
    obtain ⟨p, hp, e⟩ := minimalAttained_coord hr hk this 0 (by omega)
    exact Finset.mem_image.2 ⟨p, Finset.mem_range.2 hp, by simpa [vec2] using e⟩
  calc out.length = (out.map (fun o => o.1)).toFinset.card := by rw [List.toFinset_card_of_nodup hnd, List.length_map]
    _ ≤ _ := Finset.card_le_card hsub
    _ ≤ (Finset.range (cumsize (nruns - 1))).card := Finset.card_image_le
    _ = _ := Finset.card_range _

theorem EafLevelOk.nonempty {k : ℕ} {out : List (α × α × (ℕ → ℤ))} (hr : RunsOk cumsize nruns) (h0 : 0 < cumsize 0) (hk : k ≤ nruns)
    (h : EafLevelOk pts cumsize nruns k out) : out ≠ [] := by
  rintro rfl
  obtain ⟨x, y, e⟩ := attainCount_top (pts := pts) hr h0
  obtain ⟨o, ho, _⟩ := h.cover x y (by omega)
  simp at ho

/-- The surface in memory holds the points and the indicators of one level. -/
theorem eafSurface_of {k : ℕ} {out : List (α × α × (ℕ → ℤ))} (hr : RunsOk cumsize nruns) (h0 : 0 < cumsize 0) (hk1 : 1 ≤ k) (hk : k ≤ nruns)
    (hsize : cumsize (nruns - 1) ≤ 1073741823) (V : EafEnv α) (hV : GrowOk V) (h : EafLevelOk pts cumsize nruns k out) :
    ∃ e, eafSurface2d V nruns (cumsize (nruns - 1)) out = some e ∧ e.nruns = nruns ∧
      EafHolds 2 e (out.map (fun o => ((fun d => if d = 0 then o.1 else o.2.1), o.2.2))) := by
  have hlen := h.length_le hr hk1
  obtain ⟨e1, h1, h2, h3⟩ := eafStoreAll_holds V hV (nobj := 2) (by omega) (out.map (fun o => ((fun d => if d = 0 then o.1 else o.2.1), o.2.2)))
    (eafCreate_holds V 2 nruns (cumsize (nruns - 1))) (by simp; omega)
  rw [List.nil_append] at h2
  obtain ⟨e2, h4, h5, h6⟩ := eafAdjust_holds V (nobj := 2) (by omega) h2 (by simpa using h.nonempty hr h0 hk)
  refine ⟨e2, ?_, by rw [h6, h3]; rfl, h5⟩
  rw [eafSurface2d, h1]
  exact h4

/-- **C24**, for the memory of the result: all runs have a point, levels are `1 .. nruns`, and there are at most 2³⁰ - 1 points.  All the stores
stay inside the allocated blocks; bit `r` of point `i` of a level tells whether run `r` attains the point. -/
theorem C24_eaf2d_bits (hr : RunsOk cumsize nruns) (h0 : 0 < cumsize 0) (hx : EafSortedX pts (cumsize (nruns - 1)) sx)
    (hy : EafSortedY pts (cumsize (nruns - 1)) sy) (hf : 2 * cumsize (nruns - 1) < fuel) (levels : List ℕ) (hl : ∀ k ∈ levels, 1 ≤ k ∧ k ≤ nruns)
    (hsize : cumsize (nruns - 1) ≤ 1073741823) (V : EafEnv α) (hV : GrowOk V) :
    ∃ res, eaf2d pts cumsize nruns (levels.map Int.ofNat) sx sy fuel = some res ∧ res.length = levels.length ∧
      ∀ l (hl : l < res.length), ∃ e, eafSurface2d V nruns (cumsize (nruns - 1)) res[l] = some e ∧ e.size = res[l].length ∧
        ∀ i < e.size, ∃ x y, e.data[2 * i]? = some x ∧ e.data[2 * i + 1]? = some y ∧ (eafPoints res[l])[i]? = some (x, y) ∧
          ∀ r < nruns, bitArrayGet e.bits (bitArrayOffset 0 i nruns) r = some (decide (Attains pts cumsize 2 r (vec2 x y))) := by
  obtain ⟨res, h1, h2⟩ := eaf2d_levels hr hx hy hf levels (fun k hk => (hl k hk).1)
  obtain ⟨h3, h4⟩ := forall₂_get h2
  refine ⟨res, h1, h3, ?_⟩
  intro l hl'
  have hll : l < levels.length := by omega
  have hlv := hl levels[l] (List.getElem_mem _)
  have hL := h4 l hll hl'
  obtain ⟨e, e1, e2, e3⟩ := eafSurface_of hr h0 hlv.1 hlv.2 hsize V hV hL
  refine ⟨e, e1, by rw [e3.size]; simp, ?_⟩
  intro i hi
  rw [e3.size] at hi
  have hi' : i < res[l].length := by simpa using hi
  refine ⟨res[l][i].1, res[l][i].2.1, ?_, ?_, ?_, ?_⟩
  · have := e3.data i hi 0 (by omega)
    simpa using this
  · have := e3.data i hi 1 (by omega)
    simpa using this
  · unfold eafPoints
    simp [List.getElem?_eq_getElem hi']
  · intro r hrn
    have := e3.bits i hi r (by omega)
    rw [e2] at this
    rw [this]
    congr 1
    simp only [List.getElem_map]
    exact decide_eq_decide.2 (hL.bits _ (List.getElem_mem _) r hrn)

theorem eafMatrixRows_spec {perc : ℕ → α} : ∀ (outs : List (List (α × α × (ℕ → ℤ)))) (es : List (EafT α)) (k : ℕ),
    List.Forall₂ (fun out e => EafHolds 2 e (out.map (fun o => ((fun d => if d = 0 then o.1 else o.2.1), o.2.2)))) outs es →
    eafMatrixRows 2 perc k es = some (((outs.zipIdx k).map (fun ol => (eafPoints ol.1).map (fun p => [p.1, p.2, perc ol.2]))).flatten) := by
  intro outs es k h
  induction h generalizing k with
  | nil => rfl
  | cons h _ ih =>
    rw [eafMatrixRows, eafRows_holds h, ih (k + 1)]
    simp [eafPoints, List.range_succ, Function.comp_def]

/-- The matrix returned by `eaf_compute_matrix` (and so by `eaf` in R and Python) for two objectives: for every level in the given order, one row
`(x, y, percentile)` for each point of that level, in the order of C25. -/
theorem C25_eaf_matrix (hr : RunsOk cumsize nruns) (h0 : 0 < cumsize 0) (hx : EafSortedX pts (cumsize (nruns - 1)) sx)
    (hy : EafSortedY pts (cumsize (nruns - 1)) sy) (hf : 2 * cumsize (nruns - 1) < fuel) (levels : List ℕ) (hl : ∀ k ∈ levels, 1 ≤ k ∧ k ≤ nruns)
    (hsize : cumsize (nruns - 1) ≤ 1073741823) (V : EafEnv α) (hV : GrowOk V) (perc : ℕ → α) :
    ∃ blocks : List (List (α × α)), eafComputeMatrix2d V pts cumsize nruns (levels.map Int.ofNat) perc sx sy fuel =
        some (((blocks.zipIdx 0).map (fun bl => bl.1.map (fun p => [p.1, p.2, perc bl.2]))).flatten) ∧
      blocks.length = levels.length ∧ ∀ i (hi : i < levels.length) (hi' : i < blocks.length), blocks[i] ≠ [] ∧
        blocks[i].Pairwise (fun p q => p.1 < q.1 ∧ q.2 < p.2) ∧
        ∀ x y, (x, y) ∈ blocks[i] ↔ MinimalAttained pts cumsize nruns 2 levels[i] (vec2 x y) := by
  obtain ⟨res, h1, h2⟩ := eaf2d_levels hr hx hy hf levels (fun k hk => (hl k hk).1)
  have hsurf : ∃ es, res.mapM (fun out => eafSurface2d V nruns (cumsize (nruns - 1)) out) = some es ∧
      List.Forall₂ (fun out e => EafHolds 2 e (out.map (fun o => ((fun d => if d = 0 then o.1 else o.2.1), o.2.2)))) res es := by
    clear h1
    induction h2 with
    | nil => exact ⟨[], rfl, List.Forall₂.nil⟩
    | @cons k out ks outs h _ ih =>
      obtain ⟨es, g1, g2⟩ := ih (fun k hk => hl k (by simp [hk]))
      have hk := hl k (by simp)
      obtain ⟨e, g3, _, g4⟩ := eafSurface_of hr h0 hk.1 hk.2 hsize V hV h
      exact ⟨e :: es, by rw [List.mapM_cons, g3, g1]; rfl, List.Forall₂.cons g4 g2⟩
  obtain ⟨es, g1, g2⟩ := hsurf
  obtain ⟨h3, h4⟩ := forall₂_get h2
  refine ⟨res.map eafPoints, ?_, by simp [h3], ?_⟩
  · rw [eafComputeMatrix2d, h1]
    dsimp only
    rw [g1]
    dsimp only
    rw [eafMatrixRows_spec res es 0 g2, List.zipIdx_map, List.map_map]
    rfl
  · intro i hi hi'
    have hi2 : i < res.length := by omega
    have hL := h4 i hi hi2
    rw [List.getElem_map]
    refine ⟨?_, ?_, hL.points.2⟩
    · unfold eafPoints; simpa using hL.nonempty hr h0 (hl _ (List.getElem_mem _)).2
    · unfold eafPoints; rw [List.pairwise_map]; exact hL.chain

end main

/-! ## The hypotheses are met -/

theorem exists_eafSortedX (pts : ℕ → ℕ → α) (n : ℕ) : ∃ sx, EafSortedX pts n sx :=
  exists_qsort (fun a b => compareXasc (pts a) (pts b)) (fun _ _ _ h1 h2 => compareXasc_le.2 ((compareXasc_le.1 h1).trans (compareXasc_le.1 h2)))
    (fun a b => (le_total (pts a 0) (pts b 0)).imp compareXasc_le.2 compareXasc_le.2) _

theorem exists_eafSortedY (pts : ℕ → ℕ → α) (n : ℕ) : ∃ sy, EafSortedY pts n sy :=
  exists_qsort (fun a b => compareYdesc (pts a) (pts b)) (fun _ _ _ h1 h2 => compareYdesc_le.2 ((compareYdesc_le.1 h2).trans (compareYdesc_le.1 h1)))
    (fun a b => (le_total (pts b 1) (pts a 1)).imp compareYdesc_le.2 compareYdesc_le.2) _

/-- Two runs: `(1,3), (3,1)` and `(2,2), (1,4)`. -/
def eafExPts : ℕ → ℕ → ℤ := fun k d => ([[1, 3], [3, 1], [2, 2], [1, 4]].getD k []).getD d 0
def eafExCum : ℕ → ℕ := fun r => [2, 4].getD r 0

theorem eafEx_runs : RunsOk eafExCum 2 := by
  refine ⟨by decide, ?_, by decide⟩
  intro r hr
  obtain rfl : r = 0 := by omega
  decide

example : EafSortedX eafExPts 4 [3, 0, 2, 1] := ⟨by decide, by decide⟩
example : EafSortedY eafExPts 4 [3, 0, 2, 1] := ⟨by decide, by decide⟩

/-- The result on the example, with the attained runs of each point. -/
example : ((eaf2d eafExPts eafExCum 2 [1, 2] [3, 0, 2, 1] [3, 0, 2, 1] 9).map
    (fun res => res.map (fun out => out.map (fun o => (o.1, o.2.1, o.2.2 0, o.2.2 1))))) =
    some [[(1, 3, 1, 0), (2, 2, 0, 1), (3, 1, 1, 0)], [(1, 4, 1, 1), (2, 3, 1, 1), (3, 2, 1, 1)]] := by decide +kernel

example : ∃ res, eaf2d eafExPts eafExCum 2 ([1, 2].map Int.ofNat) [3, 0, 2, 1] [3, 0, 2, 1] 9 = some res ∧ res.length = 2 :=
  let ⟨res, h1, h2, _⟩ := C23_eaf2d_minimal_points (sx := [3, 0, 2, 1]) (sy := [3, 0, 2, 1]) (fuel := 9) eafEx_runs ⟨by decide, by decide⟩
    ⟨by decide, by decide⟩ (by decide) [1, 2] (by decide)
  ⟨res, h1, h2⟩

/-- A growth policy as the code has it: at least the old capacity. -/
example : GrowOk (⟨fun _ => 0, fun _ => 0, fun k m => m + m / 2 ^ k⟩ : EafEnv ℤ) := fun _ _ => Nat.le_add_right _ _

/-! ## An empty run in the middle -/

/-- If a run other than the first has no rows (here the second of four), the table of runs merges all the following rows into one run: the row of run 3 is
given to run 1. -/
theorem C23_empty_run_misassigned : ∃ cumsize : ℕ → ℕ, (∀ r, cumsize r ≤ cumsize (r + 1)) ∧ InRun cumsize 3 2 ∧ eafRuntab cumsize 2 ≠ 3 := by
  refine ⟨fun r => if r = 0 then 1 else if r = 1 then 1 else if r = 2 then 2 else 3, ?_, ⟨?_, by decide⟩, by decide⟩
  · intro r
    rcases r with _ | _ | _ | r <;> simp
  · intro s hs
    dsimp only
    split_ifs <;> omega

/-- Consequence: with the runs `{(1,1)}, {}, {(0,2)}, {(2,0)}`, no point of level 1 is affected, but at level 3 `eaf2d` returns no point although `(2,2)` is attained
by three runs. -/
theorem C23_false_empty_run : ∃ (pts : ℕ → ℕ → ℤ) (cumsize : ℕ → ℕ) (sx sy : List ℕ), (∀ r, cumsize r ≤ cumsize (r + 1)) ∧
    EafSortedX pts (cumsize 3) sx ∧ EafSortedY pts (cumsize 3) sy ∧
    (∀ r < 4, r ≠ 1 → Attains pts cumsize 2 r (vec2 2 2)) ∧
    (eaf2d pts cumsize 4 [3] sx sy 100).map (fun res => res.map eafPoints) = some [[]] := by
  refine ⟨fun k d => ([[1, 1], [0, 2], [2, 0]].getD k []).getD d 0, fun r => if r = 0 then 1 else if r = 1 then 1 else if r = 2 then 2 else 3,
    [1, 0, 2], [1, 0, 2], ?_, ⟨by decide, by decide⟩, ⟨by decide, by decide⟩, ?_, by decide +kernel⟩
  · intro r
    rcases r with _ | _ | _ | r <;> simp
  · intro r hr hne
    rcases (by omega : r = 0 ∨ r = 2 ∨ r = 3) with rfl | rfl | rfl
    · exact ⟨0, ⟨by decide, by decide⟩, by decide⟩
    · exact ⟨1, ⟨by decide, by decide⟩, by decide⟩
    · exact ⟨2, ⟨by decide, by decide⟩, by decide⟩

end Moo
