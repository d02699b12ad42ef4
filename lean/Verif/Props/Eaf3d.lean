import Verif.Lemmas.Eaf3dProm
import Verif.Props.Eaf2d
import Mathlib.Data.Finset.Prod

/-!
# Properties of the empirical attainment function in three objectives: C42

`sz` is any output that `qsort` may give; `levels` are the attainment levels; `mn` and `mx` stand for `objective_MIN` and `objective_MAX` (the
infinities), and `junk` for the values of the third coordinate of the sentinels, which the code does not initialise.
-/

set_option autoImplicit false
set_option linter.unusedSectionVars false

namespace Moo

open Classical

variable {α : Type*} [LinearOrder α]

/-- The coordinates of the points stored for one level. -/
def eaf3dPoints (out : List (LNode α × (ℕ → ℤ))) : List (α × α × α) := out.map (fun o => (o.1.x, o.1.y, o.1.z))

theorem attainCount_vec3 {pts : ℕ → ℕ → α} {cumsize : ℕ → ℕ} {nruns : ℕ} (w : ℕ → α) :
    attainCount pts cumsize nruns 3 w = attainCount pts cumsize nruns 3 (vec3 (w 0) (w 1) (w 2)) := by
  apply attainCount_congr
  intro d hd
  rcases (by omega : d = 0 ∨ d = 1 ∨ d = 2) with rfl | rfl | rfl <;> simp [vec3]

theorem compareNode3_le {a b : ℕ → α} : compareNode3 a b ≤ 0 ↔ a 2 ≤ b 2 := by
  unfold compareNode3
  rcases lt_trichotomy (a 2) (b 2) with h | h | h
  · simp [h, h.le]
  · simp [h]
  · simp [h, h.not_ge, h.not_gt]

/-- What holds of the points of one level, in terms of the specification. -/
structure Eaf3LevelOk (pts : ℕ → ℕ → α) (cumsize : ℕ → ℕ) (nruns k : ℕ) (out : List (LNode α × (ℕ → ℤ))) : Prop where
  nodup : (eaf3dPoints out).Nodup
  points : ∀ x y z, (x, y, z) ∈ eaf3dPoints out ↔ MinimalAttained pts cumsize nruns 3 k (vec3 x y z)
  bits : ∀ o ∈ out, ∀ r < nruns, o.2 r ≠ 0 ↔ Attains pts cumsize 3 r (vec3 o.1.x o.1.y o.1.z)

section
variable {pts : ℕ → ℕ → α} {cumsize : ℕ → ℕ} {nruns : ℕ} {sz : List ℕ}

theorem at3_attains (hr : RunsOk cumsize nruns) (hz : EafSortedZ pts (cumsize (nruns - 1)) sz) {P : List (Pt3 α)}
    (hP : ∀ q, q ∈ P ↔ q ∈ eaf3dList pts cumsize sz) {r : ℕ} (hrn : r < nruns) (x y z : α) :
    At3 P r x y z ↔ Attains pts cumsize 3 r (vec3 x y z) := by
  unfold At3 Attains
  constructor
  · rintro ⟨p, hp, h1, h2, h3, h4⟩
    rw [hP, eaf3dList, List.mem_map] at hp
    obtain ⟨i, hi, rfl⟩ := hp
    have hin : i < cumsize (nruns - 1) := List.mem_range.1 (hz.1.mem_iff.1 hi)
    refine ⟨i, ?_, ?_⟩
    · have := (eafRuntab_spec hr i hin).1
      simp only at h1
      rwa [h1] at this
    · intro d hd
      rcases (by omega : d = 0 ∨ d = 1 ∨ d = 2) with rfl | rfl | rfl <;> simpa [vec3]
  · rintro ⟨i, h1, h2⟩
    have hin : i < cumsize (nruns - 1) := lt_of_lt_of_le h1.2 (hr.le (by omega) (by have := hr.1; omega))
    refine ⟨⟨pts i 0, pts i 1, pts i 2, eafRuntab cumsize i⟩, ?_, (eafRuntab_spec hr i hin).1.unique h1, ?_, ?_, ?_⟩
    · rw [hP, eaf3dList, List.mem_map]
      exact ⟨i, hz.1.mem_iff.2 (List.mem_range.2 hin), rfl⟩
    · simpa [vec3] using h2 0 (by omega)
    · simpa [vec3] using h2 1 (by omega)
    · simpa [vec3] using h2 2 (by omega)

theorem cnt3_attainCount (hr : RunsOk cumsize nruns) (hz : EafSortedZ pts (cumsize (nruns - 1)) sz) {P : List (Pt3 α)}
    (hP : ∀ q, q ∈ P ↔ q ∈ eaf3dList pts cumsize sz) (x y z : α) :
    cnt3 P nruns x y z = attainCount pts cumsize nruns 3 (vec3 x y z) := by
  unfold cnt3 attainCount
  congr 1
  apply Finset.filter_congr
  intro r hrn
  exact at3_attains hr hz hP (Finset.mem_range.1 hrn) x y z

/-- The nodes of the output of a level are the minimal points. -/
theorem live_minimal {mn mx junk : α} {xs : α → Prop} {P : List (Pt3 α)} {zb : α} {st : St3 α} (hr : RunsOk cumsize nruns)
    (hz : EafSortedZ pts (cumsize (nruns - 1)) sz) (hP : ∀ q, q ∈ P ↔ q ∈ eaf3dList pts cumsize sz)
    (hb : ∀ i < cumsize (nruns - 1), ∀ d < 2, mn < pts i d ∧ pts i d < mx) (h : Inv3 mn mx junk nruns xs P zb st) (k : ℕ) (x y z : α) :
    (∃ n, Live mn mx st k n ∧ n.x = x ∧ n.y = y ∧ n.z = z) ↔ MinimalAttained pts cumsize nruns 3 (k + 1) (vec3 x y z) := by
  constructor
  · rintro ⟨n, hn, rfl, rfl, rfl⟩
    refine ⟨by rw [← cnt3_attainCount hr hz hP]; exact h.live_count hn, ?_⟩
    intro w hw hle
    have hbn := h.live_bounds hn
    have w0 : w 0 ≤ n.x := by simpa [vec3] using hle 0 (by omega)
    have w1 : w 1 ≤ n.y := by simpa [vec3] using hle 1 (by omega)
    have w2 : w 2 ≤ n.z := by simpa [vec3] using hle 2 (by omega)
    rw [attainCount_vec3, ← cnt3_attainCount hr hz hP, h.cov k _ _ _ (lt_of_le_of_lt w0 hbn.2.2.1) (lt_of_le_of_lt w1 hbn.2.2.2.2)] at hw
    obtain ⟨m, hm, h1, h2, h3⟩ := hw
    have e := h.anti k m n hm hn (h1.trans w0) (h2.trans w1) (h3.trans w2)
    rw [e] at h1 h2 h3
    intro d hd
    rcases (by omega : d = 0 ∨ d = 1 ∨ d = 2) with rfl | rfl | rfl
    · simpa [vec3] using le_antisymm w0 h1
    · simpa [vec3] using le_antisymm w1 h2
    · simpa [vec3] using le_antisymm w2 h3
  · intro hmin
    obtain ⟨p0, hp0, e0⟩ := minimalAttained_coord hr (by omega) hmin 0 (by omega)
    obtain ⟨p1, hp1, e1⟩ := minimalAttained_coord hr (by omega) hmin 1 (by omega)
    have hx : x < mx := by
      have := (hb p0 hp0 0 (by omega)).2
      rw [e0] at this
      simpa [vec3] using this
    have hy : y < mx := by
      have := (hb p1 hp1 1 (by omega)).2
      rw [e1] at this
      simpa [vec3] using this
    have h1 := hmin.1
    rw [← cnt3_attainCount hr hz hP, h.cov k _ _ _ hx hy] at h1
    obtain ⟨n, hn, h2, h3, h4⟩ := h1
    have hc := h.live_count hn
    rw [cnt3_attainCount hr hz hP] at hc
    have := hmin.2 (vec3 n.x n.y n.z) hc (by
      intro d hd
      rcases (by omega : d = 0 ∨ d = 1 ∨ d = 2) with rfl | rfl | rfl <;> simpa [vec3])
    have e0 := this 0 (by omega)
    have e1 := this 1 (by omega)
    have e2 := this 2 (by omega)
    simp [vec3] at e0 e1 e2
    exact ⟨n, hn, e0, e1, e2⟩

theorem mapM_forall₂ {β γ : Type*} {f : β → Option γ} {R : β → γ → Prop} : ∀ (l : List β), (∀ b ∈ l, ∃ c, f b = some c ∧ R b c) →
    ∃ m, l.mapM f = some m ∧ List.Forall₂ R l m := by
  intro l
  induction l with
  | nil => intro _; exact ⟨[], rfl, List.Forall₂.nil⟩
  | cons b l ih =>
    intro h
    obtain ⟨m, h1, h2⟩ := ih (fun b hb => h b (by simp [hb]))
    obtain ⟨c, h3, h4⟩ := h b (by simp)
    exact ⟨c :: m, by rw [List.mapM_cons, h3, h1]; rfl, List.Forall₂.cons h4 h2⟩

theorem eaf3d_levels {mn mx junk : α} {fuel : ℕ} (hr : RunsOk cumsize nruns) (hz : EafSortedZ pts (cumsize (nruns - 1)) sz)
    (hb : ∀ i < cumsize (nruns - 1), ∀ d < 2, mn < pts i d ∧ pts i d < mx) (hf : cumsize (nruns - 1) + 3 ≤ fuel) :
    ∃ N, ∀ fuelP, N ≤ fuelP → ∀ levels : List ℕ, (∀ k ∈ levels, 1 ≤ k ∧ k ≤ nruns) →
      ∃ res, eaf3d mn mx junk pts cumsize nruns (levels.map Int.ofNat) sz fuel fuelP = some res ∧
        List.Forall₂ (Eaf3LevelOk pts cumsize nruns) levels res := by
  have hlen : sz.length = cumsize (nruns - 1) := by rw [hz.1.length_eq, List.length_range]
  have hpos := hr.2.2
  have hmm : mn < mx := (hb 0 hpos 0 (by omega)).1.trans (hb 0 hpos 0 (by omega)).2
  have hmem : ∀ i ∈ sz, i < cumsize (nruns - 1) := fun i hi => List.mem_range.1 (hz.1.mem_iff.1 hi)
  obtain ⟨st, P, zb, xs, g, h1, hP, hI, hG⟩ := eaf3df_spec (mn := mn) (mx := mx) (junk := junk) (nset := nruns) (fuel := fuel)
    (ps := eaf3dList pts cumsize sz) (by simp [eaf3dList]; omega)
    (by
      intro e
      have := congrArg List.length e
      simp [eaf3dList] at this
      rw [this] at hlen
      simp at hlen
      omega)
    (by
      intro p hp
      rw [eaf3dList, List.mem_map] at hp
      obtain ⟨i, hi, rfl⟩ := hp
      exact ⟨(hb i (hmem i hi) 0 (by omega)).1, (hb i (hmem i hi) 0 (by omega)).2, (hb i (hmem i hi) 1 (by omega)).1,
        (hb i (hmem i hi) 1 (by omega)).2, (eafRuntab_spec hr i (hmem i hi)).2⟩)
    (by
      rw [eaf3dList, List.pairwise_map]
      exact hz.2.imp (fun h => compareNode3_le.1 h))
  refine ⟨promFuel nruns st.heap.fresh, ?_⟩
  intro fuelP hfP levels hl
  unfold eaf3d
  rw [h1]
  dsimp only
  obtain ⟨output, h2, h3⟩ := mapM_forall₂ (f := fun k => add2outputAll (st.outs k) (st.levels k))
    (R := fun k nodes => nodes.Nodup ∧ ∀ n, n ∈ nodes ↔ Live mn mx st k n) (List.range nruns) (fun k _ => add2outputAll_spec hI hmm k)
  obtain ⟨h4, h5⟩ := forall₂_get h3
  rw [List.length_range] at h4
  rw [h2]
  dsimp only
  rw [List.mapM_map]
  refine mapM_forall₂ _ ?_
  intro k hk
  have hk' := hl k hk
  simp only [Function.comp_def, Int.ofNat_eq_natCast]
  rw [if_neg (by omega)]
  have ek : ((k : ℤ) - 1).toNat = k - 1 := by omega
  have hlt : k - 1 < output.length := by omega
  rw [ek, List.getElem?_eq_getElem hlt]
  have h6 := h5 (k - 1) (by rw [List.length_range]; omega) hlt
  rw [List.getElem_range] at h6
  obtain ⟨out, h7, h8⟩ := mapM_forall₂ (f := fun n => (findAllPromoters st.heap fuelP n (fun _ => 0)).map (fun att => (n, att)))
    (R := fun n o => o.1 = n ∧ ∀ r < nruns, o.2 r ≠ 0 ↔ Attains pts cumsize 3 r (vec3 n.x n.y n.z)) (output[k - 1]) (by
      intro n hn
      obtain ⟨att, g1, -, g2⟩ := findAllPromoters_live hI hG ((h6.2 n).1 hn) hfP
      refine ⟨(n, att), by rw [g1]; rfl, rfl, ?_⟩
      intro r hrn
      rw [g2 r hrn, at3_attains hr hz hP hrn])
  have hmap : out.map (fun o => o.1) = output[k - 1] := by
    have : ∀ (l : List (LNode α)) (m : List (LNode α × (ℕ → ℤ))), List.Forall₂ (fun n o => o.1 = n ∧
        ∀ r < nruns, o.2 r ≠ 0 ↔ Attains pts cumsize 3 r (vec3 n.x n.y n.z)) l m → m.map (fun o => o.1) = l := by
      intro l m h
      induction h with
      | nil => rfl
      | cons h _ ih => rw [List.map_cons, ih, h.1]
    exact this _ _ h8
  have hpts : eaf3dPoints out = (output[k - 1]).map (fun n => (n.x, n.y, n.z)) := by
    rw [← hmap, List.map_map]
    rfl
  refine ⟨out, h7, ?_, ?_, ?_⟩
  · rw [hpts]
    refine List.Nodup.map_on ?_ h6.1
    intro a ha b hb' e
    simp only [Prod.mk.injEq] at e
    exact hI.anti (k - 1) a b ((h6.2 a).1 ha) ((h6.2 b).1 hb') e.1.le e.2.1.le e.2.2.le
  · intro x y z
    have := live_minimal hr hz hP hb hI (k - 1) x y z
    rw [Nat.sub_add_cancel hk'.1] at this
    rw [← this, hpts, List.mem_map]
    constructor
    · rintro ⟨n, h9, e⟩
      simp only [Prod.mk.injEq] at e
      exact ⟨n, (h6.2 n).1 h9, e.1, e.2.1, e.2.2⟩
    · rintro ⟨n, h9, rfl, rfl, rfl⟩
      exact ⟨n, (h6.2 n).2 h9, rfl⟩
  · intro o ho
    obtain ⟨i, hi, rfl⟩ := List.getElem_of_mem ho
    obtain ⟨h9, h10⟩ := forall₂_get h8
    have := h10 i (by omega) hi
    rw [← this.1] at this
    exact this.2

end

section main
variable {pts : ℕ → ℕ → α} {cumsize : ℕ → ℕ} {nruns : ℕ} {sz : List ℕ} {mn mx : α} {fuel : ℕ}

/-- **C42**: if the first two coordinates of the points are finite, `eaf3d` terminates (`fuelP` bounds the iterations of its last phase) without using a null
pointer, an uninitialised value or a removed node, and the points of level `k` are, without repetition, exactly the minimal vectors attained
by at least `k` runs. -/
theorem C42_eaf3d_minimal_points (hr : RunsOk cumsize nruns) (hz : EafSortedZ pts (cumsize (nruns - 1)) sz)
    (hb : ∀ i < cumsize (nruns - 1), ∀ d < 2, mn < pts i d ∧ pts i d < mx) (hf : cumsize (nruns - 1) + 3 ≤ fuel) (junk : α) :
    ∃ N, ∀ fuelP, N ≤ fuelP → ∀ levels : List ℕ, (∀ k ∈ levels, 1 ≤ k ∧ k ≤ nruns) →
      ∃ res, eaf3d mn mx junk pts cumsize nruns (levels.map Int.ofNat) sz fuel fuelP = some res ∧ res.length = levels.length ∧
        ∀ i (hi : i < levels.length) (hi' : i < res.length), (eaf3dPoints res[i]).Nodup ∧
          ∀ x y z, (x, y, z) ∈ eaf3dPoints res[i] ↔ MinimalAttained pts cumsize nruns 3 levels[i] (vec3 x y z) := by
  obtain ⟨N, h⟩ := eaf3d_levels (junk := junk) hr hz hb hf
  refine ⟨N, fun fuelP hfP levels hl => ?_⟩
  obtain ⟨res, h1, h2⟩ := h fuelP hfP levels hl
  obtain ⟨h3, h4⟩ := forall₂_get h2
  exact ⟨res, h1, h3, fun i hi hi' => ⟨(h4 i hi hi').nodup, (h4 i hi hi').points⟩⟩

theorem Eaf3LevelOk.reached {k : ℕ} {out : List (LNode α × (ℕ → ℤ))} (h : Eaf3LevelOk pts cumsize nruns k out) :
    ∀ o ∈ out, k ≤ attainCount pts cumsize nruns 3 (vec3 o.1.x o.1.y o.1.z) :=
  fun o ho => ((h.points _ _ _).1 (List.mem_map.2 ⟨o, ho, rfl⟩)).1

/-- **C42**, indicators: for every point of level `k`, entry `r` of the array of indicators is nonzero iff run `r` attains the point, and at least `k`
entries are nonzero. -/
theorem C42_eaf3d_attained (hr : RunsOk cumsize nruns) (hz : EafSortedZ pts (cumsize (nruns - 1)) sz)
    (hb : ∀ i < cumsize (nruns - 1), ∀ d < 2, mn < pts i d ∧ pts i d < mx) (hf : cumsize (nruns - 1) + 3 ≤ fuel) (junk : α) :
    ∃ N, ∀ fuelP, N ≤ fuelP → ∀ levels : List ℕ, (∀ k ∈ levels, 1 ≤ k ∧ k ≤ nruns) →
      ∃ res, eaf3d mn mx junk pts cumsize nruns (levels.map Int.ofNat) sz fuel fuelP = some res ∧ res.length = levels.length ∧
        ∀ i (hi : i < levels.length) (hi' : i < res.length), ∀ o ∈ res[i],
          (∀ r < nruns, o.2 r ≠ 0 ↔ Attains pts cumsize 3 r (vec3 o.1.x o.1.y o.1.z)) ∧
          levels[i] ≤ ((Finset.range nruns).filter (fun r => o.2 r ≠ 0)).card := by
  obtain ⟨N, h⟩ := eaf3d_levels (junk := junk) hr hz hb hf
  refine ⟨N, fun fuelP hfP levels hl => ?_⟩
  obtain ⟨res, h1, h2⟩ := h fuelP hfP levels hl
  obtain ⟨h3, h4⟩ := forall₂_get h2
  refine ⟨res, h1, h3, ?_⟩
  intro i hi hi' o ho
  refine ⟨(h4 i hi hi').bits o ho, ?_⟩
  have := (h4 i hi hi').reached o ho
  unfold attainCount at this
  refine this.trans (le_of_eq ?_)
  congr 1
  apply Finset.filter_congr
  intro r hrn
  exact ((h4 i hi hi').bits o ho r (Finset.mem_range.1 hrn)).symm

/-- Two coordinates of a minimal vector determine it. -/
theorem minimalAttained_z {k : ℕ} {x y z z' : α} (h : MinimalAttained pts cumsize nruns 3 k (vec3 x y z))
    (h' : MinimalAttained pts cumsize nruns 3 k (vec3 x y z')) : z = z' := by
  rcases le_total z z' with hle | hle
  · have := h'.2 _ h.1 (by
      intro d hd
      rcases (by omega : d = 0 ∨ d = 1 ∨ d = 2) with rfl | rfl | rfl <;> simp [vec3, hle]) 2 (by omega)
    simpa [vec3] using this
  · have := h.2 _ h'.1 (by
      intro d hd
      rcases (by omega : d = 0 ∨ d = 1 ∨ d = 2) with rfl | rfl | rfl <;> simp [vec3, hle]) 2 (by omega)
    simpa [vec3] using this.symm

/-- A level has at most `n²` points. -/
theorem Eaf3LevelOk.length_le {k : ℕ} {out : List (LNode α × (ℕ → ℤ))} (hr : RunsOk cumsize nruns) (hk : 1 ≤ k)
    (h : Eaf3LevelOk pts cumsize nruns k out) : out.length ≤ cumsize (nruns - 1) * cumsize (nruns - 1) := by
  let n := cumsize (nruns - 1)
  have hnd : (out.map (fun o => (o.1.x, o.1.y))).Nodup := by
    have e : out.map (fun o => (o.1.x, o.1.y)) = (eaf3dPoints out).map (fun p => (p.1, p.2.1)) := by
      unfold eaf3dPoints
      rw [List.map_map]
      rfl
    rw [e]
    refine List.Nodup.map_on ?_ h.nodup
    rintro ⟨x, y, z⟩ h1 ⟨x', y', z'⟩ h2 e
    simp only [Prod.mk.injEq] at e
    obtain ⟨rfl, rfl⟩ := e
    rw [minimalAttained_z ((h.points _ _ _).1 h1) ((h.points _ _ _).1 h2)]
  have hsub : (out.map (fun o => (o.1.x, o.1.y))).toFinset ⊆ ((Finset.range n).image (fun p => pts p 0)) ×ˢ ((Finset.range n).image (fun p => pts p 1)) := by
    intro p hp
    rw [List.mem_toFinset, List.mem_map] at hp
    obtain ⟨o, ho, rfl⟩ := hp
    have := (h.points o.1.x o.1.y o.1.z).1 (List.mem_map.2 ⟨o, ho, rfl⟩)
    obtain ⟨p, hp, e⟩ := minimalAttained_coord hr hk this 0 (by omega)
    obtain ⟨q, hq, e'⟩ := minimalAttained_coord hr hk this 1 (by omega)
    rw [Finset.mem_product]
    exact ⟨Finset.mem_image.2 ⟨p, Finset.mem_range.2 hp, by simpa [vec3] using e⟩, Finset.mem_image.2 ⟨q, Finset.mem_range.2 hq, by simpa [vec3] using e'⟩⟩
  calc out.length = (out.map (fun o => (o.1.x, o.1.y))).toFinset.card := by rw [List.toFinset_card_of_nodup hnd, List.length_map]
    _ ≤ _ := Finset.card_le_card hsub
    _ = _ := Finset.card_product _ _
    _ ≤ n * n := Nat.mul_le_mul (Finset.card_image_le.trans (le_of_eq (Finset.card_range _))) (Finset.card_image_le.trans (le_of_eq (Finset.card_range _)))

/-- The surface in memory holds the points and the indicators of one level. -/
theorem eaf3dSurface_of {out : List (LNode α × (ℕ → ℤ))} (hsize : out.length ≤ 1073741823) (V : EafEnv α) (hV : GrowOk V) :
    ∃ e, eaf3dSurface V nruns (cumsize (nruns - 1)) out = some e ∧ e.nruns = nruns ∧
      EafHolds 3 e (out.map (fun o => ((fun d => if d = 0 then o.1.x else if d = 1 then o.1.y else o.1.z), o.2))) := by
  obtain ⟨e1, h1, h2, h3⟩ := eafStoreAll_holds V hV (nobj := 3) (by omega)
    (out.map (fun o => ((fun d => if d = 0 then o.1.x else if d = 1 then o.1.y else o.1.z), o.2)))
    (eafCreate_holds V 3 nruns (cumsize (nruns - 1))) (by simp; omega)
  rw [List.nil_append] at h2
  exact ⟨e1, h1, by rw [h3]; rfl, h2⟩

/-- **C42**, for the memory of the result: with at most 32767 points, all the stores stay inside the allocated blocks; bit `r` of point `i` of a level
tells whether run `r` attains the point. -/
theorem C42_eaf3d_bits (hr : RunsOk cumsize nruns) (hz : EafSortedZ pts (cumsize (nruns - 1)) sz)
    (hb : ∀ i < cumsize (nruns - 1), ∀ d < 2, mn < pts i d ∧ pts i d < mx) (hf : cumsize (nruns - 1) + 3 ≤ fuel) (junk : α)
    (hsize : cumsize (nruns - 1) ≤ 32767) (V : EafEnv α) (hV : GrowOk V) :
    ∃ N, ∀ fuelP, N ≤ fuelP → ∀ levels : List ℕ, (∀ k ∈ levels, 1 ≤ k ∧ k ≤ nruns) →
      ∃ res, eaf3d mn mx junk pts cumsize nruns (levels.map Int.ofNat) sz fuel fuelP = some res ∧ res.length = levels.length ∧
        ∀ l (hl : l < res.length), ∃ e, eaf3dSurface V nruns (cumsize (nruns - 1)) res[l] = some e ∧ e.size = res[l].length ∧
          ∀ i < e.size, ∃ x y z, e.data[3 * i]? = some x ∧ e.data[3 * i + 1]? = some y ∧ e.data[3 * i + 2]? = some z ∧
            (eaf3dPoints res[l])[i]? = some (x, y, z) ∧
            ∀ r < nruns, bitArrayGet e.bits (bitArrayOffset 0 i nruns) r = some (decide (Attains pts cumsize 3 r (vec3 x y z))) := by
  obtain ⟨N, h⟩ := eaf3d_levels (junk := junk) hr hz hb hf
  refine ⟨N, fun fuelP hfP levels hl => ?_⟩
  obtain ⟨res, h1, h2⟩ := h fuelP hfP levels hl
  obtain ⟨h3, h4⟩ := forall₂_get h2
  refine ⟨res, h1, h3, ?_⟩
  intro l hl'
  have hll : l < levels.length := by omega
  have hlv := hl levels[l] (List.getElem_mem _)
  have hL := h4 l hll hl'
  have hlen := (hL.length_le hr hlv.1).trans (Nat.mul_le_mul hsize hsize)
  obtain ⟨e, e1, e2, e3⟩ := eaf3dSurface_of (nruns := nruns) (cumsize := cumsize) (hlen.trans (by norm_num)) V hV
  refine ⟨e, e1, by rw [e3.size]; simp, ?_⟩
  intro i hi
  rw [e3.size] at hi
  have hi' : i < res[l].length := by simpa using hi
  refine ⟨res[l][i].1.x, res[l][i].1.y, res[l][i].1.z, ?_, ?_, ?_, ?_, ?_⟩
  · have := e3.data i hi 0 (by omega)
    simpa using this
  · have := e3.data i hi 1 (by omega)
    simpa using this
  · have := e3.data i hi 2 (by omega)
    simpa using this
  · unfold eaf3dPoints
    simp [List.getElem?_eq_getElem hi']
  · intro r hrn
    have := e3.bits i hi r (by omega)
    rw [e2] at this
    rw [this]
    congr 1
    simp only [List.getElem_map]
    exact decide_eq_decide.2 (hL.bits _ (List.getElem_mem _) r hrn)

theorem eafMatrixRows3_spec {perc : ℕ → α} : ∀ (outs : List (List (LNode α × (ℕ → ℤ)))) (es : List (EafT α)) (k : ℕ),
    List.Forall₂ (fun out e => EafHolds 3 e (out.map (fun o => ((fun d => if d = 0 then o.1.x else if d = 1 then o.1.y else o.1.z), o.2)))) outs es →
    eafMatrixRows 3 perc k es = some (((outs.zipIdx k).map (fun ol => (eaf3dPoints ol.1).map (fun p => [p.1, p.2.1, p.2.2, perc ol.2]))).flatten) := by
  intro outs es k h
  induction h generalizing k with
  | nil => rfl
  | cons h _ ih =>
    rw [eafMatrixRows, eafRows_holds h, ih (k + 1)]
    simp [eaf3dPoints, List.range_succ, Function.comp_def]

/-- The matrix returned by `eaf_compute_matrix` (and so by `eaf` in Python) for three objectives: for every level in the given order, one row
`(x, y, z, percentile)` for each minimal point of that level. -/
theorem C42_eaf_matrix (hr : RunsOk cumsize nruns) (hz : EafSortedZ pts (cumsize (nruns - 1)) sz)
    (hb : ∀ i < cumsize (nruns - 1), ∀ d < 2, mn < pts i d ∧ pts i d < mx) (hf : cumsize (nruns - 1) + 3 ≤ fuel) (junk : α)
    (hsize : cumsize (nruns - 1) ≤ 32767) (V : EafEnv α) (hV : GrowOk V) :
    ∃ N, ∀ fuelP, N ≤ fuelP → ∀ (perc : ℕ → α) (levels : List ℕ), (∀ k ∈ levels, 1 ≤ k ∧ k ≤ nruns) →
      ∃ blocks : List (List (α × α × α)), eafComputeMatrix3d V mn mx junk pts cumsize nruns (levels.map Int.ofNat) perc sz fuel fuelP =
          some (((blocks.zipIdx 0).map (fun bl => bl.1.map (fun p => [p.1, p.2.1, p.2.2, perc bl.2]))).flatten) ∧
        blocks.length = levels.length ∧ ∀ i (hi : i < levels.length) (hi' : i < blocks.length), blocks[i].Nodup ∧
          ∀ x y z, (x, y, z) ∈ blocks[i] ↔ MinimalAttained pts cumsize nruns 3 levels[i] (vec3 x y z) := by
  obtain ⟨N, h⟩ := eaf3d_levels (junk := junk) hr hz hb hf
  refine ⟨N, fun fuelP hfP perc levels hl => ?_⟩
  obtain ⟨res, h1, h2⟩ := h fuelP hfP levels hl
  obtain ⟨h3, h4⟩ := forall₂_get h2
  obtain ⟨es, g1, g2⟩ := mapM_forall₂ (f := fun out => eaf3dSurface V nruns (cumsize (nruns - 1)) out)
    (R := fun out e => EafHolds 3 e (out.map (fun o => ((fun d => if d = 0 then o.1.x else if d = 1 then o.1.y else o.1.z), o.2)))) res (by
      intro out ho
      obtain ⟨i, hi, rfl⟩ := List.getElem_of_mem ho
      have hL := h4 i (by omega) hi
      have hlen := (hL.length_le hr (hl _ (List.getElem_mem _)).1).trans (Nat.mul_le_mul hsize hsize)
      obtain ⟨e, e1, -, e3⟩ := eaf3dSurface_of (nruns := nruns) (cumsize := cumsize) (hlen.trans (by norm_num)) V hV
      exact ⟨e, e1, e3⟩)
  refine ⟨res.map eaf3dPoints, ?_, by simp [h3], ?_⟩
  · rw [eafComputeMatrix3d, h1]
    dsimp only
    rw [g1]
    dsimp only
    rw [eafMatrixRows3_spec res es 0 g2, List.zipIdx_map, List.map_map]
    rfl
  · intro i hi hi'
    have hi2 : i < res.length := by omega
    have hL := h4 i hi hi2
    rw [List.getElem_map]
    exact ⟨hL.nodup, hL.points⟩

end main

/-! ## The hypotheses are met -/

theorem exists_eafSortedZ (pts : ℕ → ℕ → α) (n : ℕ) : ∃ sz, EafSortedZ pts n sz :=
  exists_qsort (fun a b => compareNode3 (pts a) (pts b)) (fun _ _ _ h1 h2 => compareNode3_le.2 ((compareNode3_le.1 h1).trans (compareNode3_le.1 h2)))
    (fun a b => (le_total (pts a 2) (pts b 2)).imp compareNode3_le.2 compareNode3_le.2) _

/-- Three runs: `(1,3,1), (3,1,2)`, `(2,2,1), (1,4,2)` and `(3,3,1), (2,2,2)`. -/
def eaf3ExPts : ℕ → ℕ → ℤ := fun k d => ([[1, 3, 1], [3, 1, 2], [2, 2, 1], [1, 4, 2], [3, 3, 1], [2, 2, 2]].getD k []).getD d 0
def eaf3ExCum : ℕ → ℕ := fun r => [2, 4, 6].getD r 0

theorem eaf3Ex_runs : RunsOk eaf3ExCum 3 := by
  refine ⟨by decide, ?_, by decide⟩
  intro r hr
  rcases (by omega : r = 0 ∨ r = 1) with rfl | rfl <;> decide

theorem eaf3Ex_sorted : EafSortedZ eaf3ExPts 6 [2, 0, 4, 5, 1, 3] := ⟨by decide, by decide⟩

theorem eaf3Ex_bounds : ∀ i < 6, ∀ d < 2, (-100 : ℤ) < eaf3ExPts i d ∧ eaf3ExPts i d < 100 := by decide

example : ∃ N, ∀ fuelP, N ≤ fuelP → ∀ levels : List ℕ, (∀ k ∈ levels, 1 ≤ k ∧ k ≤ 3) →
    ∃ res, eaf3d (-100) 100 77 eaf3ExPts eaf3ExCum 3 (levels.map Int.ofNat) [2, 0, 4, 5, 1, 3] 9 fuelP = some res ∧ res.length = levels.length :=
  let ⟨N, h⟩ := C42_eaf3d_minimal_points (fuel := 9) eaf3Ex_runs eaf3Ex_sorted eaf3Ex_bounds (by decide) 77
  ⟨N, fun fuelP hf levels hl => let ⟨res, h1, h2, _⟩ := h fuelP hf levels hl; ⟨res, h1, h2⟩⟩

set_option synthInstance.maxSize 2000 in
/-- The result on the example, with the attained runs of each point. -/
example : ((eaf3d (-100) 100 77 eaf3ExPts eaf3ExCum 3 [1, 2, 3] [2, 0, 4, 5, 1, 3] 9 200).map
    (fun res => res.map (fun out => out.map (fun o => (o.1.x, o.1.y, o.1.z, o.2 0, o.2 1, o.2 2))))) =
    some [[(1, 3, 1, 1, 0, 0), (2, 2, 1, 0, 1, 0), (3, 1, 2, 1, 0, 0)], [(2, 3, 1, 1, 1, 0), (1, 4, 2, 1, 1, 0), (2, 2, 2, 0, 1, 1)],
      [(3, 3, 1, 1, 1, 1), (2, 3, 2, 1, 1, 1), (3, 2, 2, 1, 1, 1)]] := by decide +kernel

end Moo
