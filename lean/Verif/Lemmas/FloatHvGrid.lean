import Verif.Lemmas.FloatHvSim

/-!
# Data on a grid: the floating-point run of the hypervolume computation makes no rounding error
-/

set_option autoImplicit false
set_option linter.unusedSectionVars false

namespace Moo

variable {x : ℕ → ℕ → ℝ} {ref low : ℕ → ℝ} {rnd : ℝ → ℝ} {N : List ℕ} {d : ℕ} {e : ℕ → ℤ} {pos : ℕ → ℕ → ℕ}

/-- A multiple of `2 ^ t`. -/
def OnGrid (t : ℤ) (v : ℝ) : Prop := ∃ m : ℤ, v = m * (2 : ℝ) ^ t

theorem OnGrid.add {t : ℤ} {v w : ℝ} (hv : OnGrid t v) (hw : OnGrid t w) : OnGrid t (v + w) := by
  obtain ⟨a, rfl⟩ := hv
  obtain ⟨b, rfl⟩ := hw
  exact ⟨a + b, by push_cast; ring⟩

theorem OnGrid.sub {t : ℤ} {v w : ℝ} (hv : OnGrid t v) (hw : OnGrid t w) : OnGrid t (v - w) := by
  obtain ⟨a, rfl⟩ := hv
  obtain ⟨b, rfl⟩ := hw
  exact ⟨a - b, by push_cast; ring⟩

theorem OnGrid.mul {t s : ℤ} {v w : ℝ} (hv : OnGrid t v) (hw : OnGrid s w) : OnGrid (t + s) (v * w) := by
  obtain ⟨a, rfl⟩ := hv
  obtain ⟨b, rfl⟩ := hw
  exact ⟨a * b, by rw [zpow_add₀ (by norm_num)]; push_cast; ring⟩

theorem OnGrid.zero (t : ℤ) : OnGrid t 0 := ⟨0, by simp⟩

theorem OnGrid.rnd_eq (hr : Nearest binary64 rnd) {t : ℤ} {v : ℝ} (h : OnGrid t v) (ht : -1074 ≤ t) (hv : |v| ≤ 2 ^ 53 * (2 : ℝ) ^ t) : rnd v = v := by
  obtain ⟨m, rfl⟩ := h
  refine hr.fix ⟨m, t, ?_, ht, rfl⟩
  have hp : (0 : ℝ) < (2 : ℝ) ^ t := zpow_pos (by norm_num) _
  rw [abs_mul, abs_of_pos hp] at hv
  have := le_of_mul_le_mul_right hv hp
  norm_num at this ⊢
  exact_mod_cast this

/-- The exponent of the grid for products of the first `i` sides. -/
def gE (e : ℕ → ℤ) (i : ℕ) : ℤ := ∑ k ∈ Finset.range i, e k

/-- The product of the first `i` sides of the box from `low` to `ref`. -/
noncomputable def gW (ref low : ℕ → ℝ) (i : ℕ) : ℝ := ∏ k ∈ Finset.range i, (ref k - low k)

theorem gE_succ (e : ℕ → ℤ) (i : ℕ) : gE e (i + 1) = gE e i + e i := Finset.sum_range_succ _ _
theorem gW_succ (ref low : ℕ → ℝ) (i : ℕ) : gW ref low (i + 1) = gW ref low i * (ref i - low i) := Finset.prod_range_succ _ _

/-- What is assumed of the data. -/
structure GridData (x : ℕ → ℕ → ℝ) (ref low : ℕ → ℝ) (e : ℕ → ℤ) (d : ℕ) (N : List ℕ) : Prop where
  pts : ∀ p ∈ N, ∀ k < d, OnGrid (e k) (x p k)
  refg : ∀ k < d, OnGrid (e k) (ref k)
  lowle : ∀ p ∈ N, ∀ k < d, low k ≤ x p k
  below : ∀ p ∈ N, ∀ k < d, x p k < ref k
  lowref : ∀ k < d, low k ≤ ref k
  e1 : ∀ k < d, -1074 ≤ e k
  e2 : ∀ i ≤ d, -1074 ≤ gE e i
  W : ∀ i ≤ d, gW ref low i ≤ 2 ^ 53 * (2 : ℝ) ^ gE e i
  D : ∀ k < d, ref k - low k ≤ 2 ^ 53 * (2 : ℝ) ^ e k

theorem GridData.W0 (hd : GridData x ref low e d N) : ∀ i ≤ d, 0 ≤ gW ref low i := by
  intro i hi
  exact Finset.prod_nonneg fun k hk => sub_nonneg.2 (hd.lowref k (by rw [Finset.mem_range] at hk; omega))

theorem HvCoord.grid (hd : GridData x ref low e d N) {k : ℕ} (hk : k < d) {v : ℝ} (h : HvCoord x ref N k v) :
    OnGrid (e k) v ∧ low k ≤ v ∧ v ≤ ref k := by
  rcases h with rfl | ⟨p, hp, rfl⟩
  · exact ⟨hd.refg k hk, hd.lowref k hk, le_refl _⟩
  · exact ⟨hd.pts p hp k hk, hd.lowle p hp k hk, (hd.below p hp k hk).le⟩

/-- Differences of coordinates are exact. -/
theorem grid_sub (hr : Nearest binary64 rnd) (hd : GridData x ref low e d N) {k : ℕ} (hk : k < d) {a a' : ℝ} (ha : HvCoord x ref N k a)
    (ha' : HvCoord x ref N k a') : rnd (a' - a) = a' - a := by
  obtain ⟨g, l, u⟩ := ha.grid hd hk
  obtain ⟨g', l', u'⟩ := ha'.grid hd hk
  refine (g'.sub g).rnd_eq hr (hd.e1 k hk) ((abs_le.2 ⟨?_, ?_⟩).trans (hd.D k hk)) <;> linarith

/-- An area in the first `i` objectives. -/
def GA (ref low : ℕ → ℝ) (e : ℕ → ℤ) (i : ℕ) (a : ℝ) : Prop := OnGrid (gE e i) a ∧ 0 ≤ a ∧ a ≤ gW ref low i

/-- A volume in the first `i + 1` objectives, up to the height `z`. -/
def GV (ref low : ℕ → ℝ) (e : ℕ → ℤ) (i : ℕ) (z v : ℝ) : Prop := OnGrid (gE e (i + 1)) v ∧ 0 ≤ v ∧ v ≤ gW ref low i * (z - low i)

/-- The product of an area and a height is exact. -/
theorem grid_slab (hr : Nearest binary64 rnd) (hd : GridData x ref low e d N) {i : ℕ} (hi : i < d) {a z z' : ℝ} (ha : GA ref low e i a)
    (hz : HvCoord x ref N i z) (hz' : HvCoord x ref N i z') (hle : z ≤ z') :
    rnd (a * rnd (z' - z)) = a * (z' - z) ∧ OnGrid (gE e (i + 1)) (a * (z' - z)) ∧ 0 ≤ a * (z' - z) ∧ a * (z' - z) ≤ gW ref low i * (z' - z) := by
  obtain ⟨g, l, u⟩ := hz.grid hd hi
  obtain ⟨g', l', u'⟩ := hz'.grid hd hi
  have hW := hd.W0 i hi.le
  have h0 : 0 ≤ z' - z := sub_nonneg.2 hle
  have hgrid : OnGrid (gE e (i + 1)) (a * (z' - z)) := by rw [gE_succ]; exact ha.1.mul (g'.sub g)
  have hn : 0 ≤ a * (z' - z) := mul_nonneg ha.2.1 h0
  have hu : a * (z' - z) ≤ gW ref low i * (z' - z) := mul_le_mul_of_nonneg_right ha.2.2 h0
  refine ⟨?_, hgrid, hn, hu⟩
  rw [grid_sub hr hd hi hz hz']
  refine hgrid.rnd_eq hr (hd.e2 _ (by omega)) ?_
  rw [abs_of_nonneg hn]
  refine (hu.trans ?_).trans (hd.W (i + 1) (by omega))
  rw [gW_succ]
  exact mul_le_mul_of_nonneg_left (by linarith) hW

theorem grid_vfirst (hr : Nearest binary64 rnd) (hd : GridData x ref low e d N) {i : ℕ} (hi : i < d) {a z z' : ℝ} (ha : GA ref low e i a)
    (hz : HvCoord x ref N i z) (hz' : HvCoord x ref N i z') (hle : z ≤ z') :
    rnd (a * rnd (z' - z)) = a * (z' - z) ∧ GV ref low e i z' (a * (z' - z)) := by
  obtain ⟨h1, h2, h3, h4⟩ := grid_slab hr hd hi ha hz hz' hle
  refine ⟨h1, h2, h3, h4.trans (mul_le_mul_of_nonneg_left ?_ (hd.W0 i hi.le))⟩
  have := (hz.grid hd hi).2.1
  linarith

/-- Adding a slab is exact. -/
theorem grid_vadd (hr : Nearest binary64 rnd) (hd : GridData x ref low e d N) {i : ℕ} (hi : i < d) {a v z z' : ℝ} (hv : GV ref low e i z v)
    (ha : GA ref low e i a) (hz : HvCoord x ref N i z) (hz' : HvCoord x ref N i z') (hle : z ≤ z') :
    rnd (v + rnd (a * rnd (z' - z))) = v + a * (z' - z) ∧ GV ref low e i z' (v + a * (z' - z)) := by
  obtain ⟨h1, h2, h3, h4⟩ := grid_slab hr hd hi ha hz hz' hle
  obtain ⟨g', l', u'⟩ := hz'.grid hd hi
  have hW := hd.W0 i hi.le
  have hG : GV ref low e i z' (v + a * (z' - z)) := by
    refine ⟨hv.1.add h2, add_nonneg hv.2.1 h3, ?_⟩
    have := hv.2.2
    nlinarith
  refine ⟨?_, hG⟩
  rw [h1]
  refine hG.1.rnd_eq hr (hd.e2 _ (by omega)) ?_
  rw [abs_of_nonneg hG.2.1]
  refine (hG.2.2.trans ?_).trans (hd.W (i + 1) (by omega))
  rw [gW_succ]
  exact mul_le_mul_of_nonneg_left (by linarith) hW

theorem GV.toGA {i : ℕ} {v : ℝ} (h : GV ref low e i (ref i) v) : GA ref low e (i + 1) v := ⟨h.1, h.2.1, by rw [gW_succ]; exact h.2.2⟩

theorem gW_two : gW ref low 2 = (ref 0 - low 0) * (ref 1 - low 1) := by
  unfold gW; rw [Finset.prod_range_succ, Finset.prod_range_one]

theorem gE_two : gE e 2 = e 0 + e 1 := by unfold gE; rw [Finset.sum_range_succ, Finset.sum_range_one]

theorem grid_area (hr : Nearest binary64 rnd) (hd : GridData x ref low e d N) (hd2 : 2 ≤ d) {a a' b b' : ℝ} (ha : HvCoord x ref N 0 a)
    (ha' : HvCoord x ref N 0 a') (hb : HvCoord x ref N 1 b) (hb' : HvCoord x ref N 1 b') (h1 : a ≤ a') (h2 : b ≤ b') :
    rnd (rnd (b' - b) * rnd (a' - a)) = (b' - b) * (a' - a) ∧ OnGrid (gE e 2) ((b' - b) * (a' - a)) := by
  rw [grid_sub hr hd (by omega) ha ha', grid_sub hr hd (by omega) hb hb']
  obtain ⟨ga, la, ua⟩ := ha.grid hd (by omega)
  obtain ⟨ga', la', ua'⟩ := ha'.grid hd (by omega)
  obtain ⟨gb, lb, ub⟩ := hb.grid hd (by omega)
  obtain ⟨gb', lb', ub'⟩ := hb'.grid hd (by omega)
  have hg : OnGrid (gE e 2) ((b' - b) * (a' - a)) := by rw [gE_two, add_comm]; exact (gb'.sub gb).mul (ga'.sub ga)
  refine ⟨hg.rnd_eq hr (hd.e2 2 hd2) ?_, hg⟩
  rw [abs_of_nonneg (mul_nonneg (sub_nonneg.2 h2) (sub_nonneg.2 h1))]
  refine le_trans ?_ (hd.W 2 hd2)
  rw [gW_two, mul_comm (ref 0 - low 0)]
  exact mul_le_mul (by linarith) (by linarith) (sub_nonneg.2 h1) (by linarith [hd.lowref 1 (by omega)])

theorem grid_rnd_GA (hr : Nearest binary64 rnd) (hd : GridData x ref low e d N) {i : ℕ} (hi : i ≤ d) {v : ℝ} (h : GA ref low e i v) : rnd v = v := by
  refine h.1.rnd_eq hr (hd.e2 i hi) ?_
  rw [abs_of_nonneg h.2.1]
  exact h.2.2.trans (hd.W i hi)

theorem sim3_grid (hr : Nearest binary64 rnd) (hd : GridData x ref low e d N) (hd3 : 3 ≤ d) :
    FSim3 rnd x ref N (gW ref low 2) (fun v w _ => w = v ∧ OnGrid (gE e 2) v) (fun v w z _ => w = v ∧ GV ref low e 2 z v) where
  area_le L hL := by
    have := HV_le_box (x := x) (ref := ref) (low := low) 2 L (fun p hp k hk => hd.lowle p (hL p hp) k (by omega)) (fun k hk => hd.lowref k (by omega))
    rw [Fin.prod_univ_two] at this
    rw [gW_two]; exact this
  first {a a' b b'} ha ha' hb hb' h1 h2 hle := by
    have := grid_area hr hd (by omega) ha ha' hb hb' h1 h2
    rw [mul_comm (a' - a), mul_comm (rnd (a' - a))]; exact this
  add {v w k a a' b b'} hra ha ha' hb hb' h1 h2 h0 hle := by
    obtain ⟨rfl, hg⟩ := hra
    obtain ⟨e1, g1⟩ := grid_area hr hd (by omega) ha ha' hb hb' h1 h2
    rw [e1]
    have hp : 0 ≤ (b' - b) * (a' - a) := mul_nonneg (sub_nonneg.2 h2) (sub_nonneg.2 h1)
    exact ⟨grid_rnd_GA hr hd (by omega) ⟨hg.add g1, add_nonneg h0 hp, hle⟩, hg.add g1⟩
  sub {v w k a a' b b'} hra ha ha' hb hb' h1 h2 hle h0 := by
    obtain ⟨rfl, hg⟩ := hra
    obtain ⟨e1, g1⟩ := grid_area hr hd (by omega) ha ha' hb hb' h1 h2
    rw [e1]
    have hp : 0 ≤ (b' - b) * (a' - a) := mul_nonneg (sub_nonneg.2 h2) (sub_nonneg.2 h1)
    exact ⟨grid_rnd_GA hr hd (i := 2) (by omega) ⟨hg.sub g1, h0, by linarith⟩, hg.sub g1⟩
  vfirst {v w k z z'} hra _ h0 h1 hz hz' hle := by
    obtain ⟨rfl, hg⟩ := hra
    exact grid_vfirst hr hd (by omega) ⟨hg, h0, h1⟩ hz hz' hle
  vadd {v w j a f k z z'} hrv hra _ h0 h1 hz hz' hle := by
    obtain ⟨rfl, hg⟩ := hra
    obtain ⟨rfl, hg2⟩ := hrv
    exact grid_vadd hr hd (by omega) hg2 ⟨hg, h0, h1⟩ hz hz' hle
  vskip h := h
  height {z z'} hz hz' := by rw [grid_sub hr hd (by omega) hz hz']

/-! ### The recursion -/

/-- What is good stays good. -/
def GMono (x : ℕ → ℕ → ℝ) (ref low : ℕ → ℝ) (e : ℕ → ℤ) (S S' : HvState ℝ) : Prop :=
  (∀ i p, GA ref low e i (S.area i p) → GA ref low e i (S'.area i p)) ∧
    ∀ i p, GV ref low e i (x p i) (S.vol i p) → GV ref low e i (x p i) (S'.vol i p)

theorem GMono.of_eq {S S' : HvState ℝ} (ha : S'.area = S.area) (hv : S'.vol = S.vol) : GMono x ref low e S S' :=
  ⟨fun i p h => by rw [ha]; exact h, fun i p h => by rw [hv]; exact h⟩

theorem GMono.trans {S1 S2 S3 : HvState ℝ} (h1 : GMono x ref low e S1 S2) (h2 : GMono x ref low e S2 S3) : GMono x ref low e S1 S3 :=
  ⟨fun i p h => h2.1 i p (h1.1 i p h), fun i p h => h2.2 i p (h1.2 i p h)⟩

theorem GMono.of_area {S S' : HvState ℝ} {i p : ℕ} {v : ℝ} (ha : S'.area = upd2 S.area i p v) (hv : S'.vol = S.vol) (hg : GA ref low e i v) :
    GMono x ref low e S S' := by
  refine ⟨fun i' p' h => ?_, fun i p h => by rw [hv]; exact h⟩
  rw [ha, upd2_at]
  split
  · rename_i h'; rw [h'.1]; exact hg
  · exact h

theorem GMono.of_vol {S S' : HvState ℝ} {i p : ℕ} {v : ℝ} (ha : S'.area = S.area) (hv : S'.vol = upd2 S.vol i p v) (hg : GV ref low e i (x p i) v) :
    GMono x ref low e S S' := by
  refine ⟨fun i p h => by rw [ha]; exact h, fun i' p' h => ?_⟩
  rw [hv, upd2_at]
  split
  · rename_i h'; rw [h'.1, h'.2]; exact hg
  · exact h

/-- The stored areas and volumes that may be used are good. -/
def CacheGood (x : ℕ → ℕ → ℝ) (ref low : ℕ → ℝ) (e : ℕ → ℤ) (j : ℕ) (A : List ℕ) (S : HvState ℝ) : Prop :=
  ∀ i, 3 ≤ i → i ≤ j → ∀ q ∈ A, x q i < S.bound i → GA ref low e i (S.area i q) ∧ GV ref low e i (x q i) (S.vol i q)

theorem CacheGood.mono {j : ℕ} {A : List ℕ} {S S' : HvState ℝ} (h : CacheGood x ref low e j A S) (hm : GMono x ref low e S S')
    (hb : ∀ i, 3 ≤ i → i ≤ j → S'.bound i ≤ S.bound i) : CacheGood x ref low e j A S' := by
  intro i h3 hi q hq hlt
  obtain ⟨h1, h2⟩ := h i h3 hi q hq (lt_of_lt_of_le hlt (hb i h3 hi))
  exact ⟨hm.1 i q h1, hm.2 i q h2⟩

/-- The areas of the list head are good. -/
def HeadGood (ref low : ℕ → ℝ) (e : ℕ → ℤ) (d : ℕ) (S : HvState ℝ) : Prop := ∀ i < d, GA ref low e i (S.area i 0)

theorem HeadGood.mono {S S' : HvState ℝ} (h : HeadGood ref low e d S) (hm : GMono x ref low e S S') : HeadGood ref low e d S' :=
  fun i hi => hm.1 i 0 (h i hi)

/-- The rounded run `recF` does what the exact run `rec` does. -/
def GoodRec (x : ℕ → ℕ → ℝ) (ref low : ℕ → ℝ) (e : ℕ → ℤ) (pos : ℕ → ℕ → ℕ) (N : List ℕ) (d j : ℕ)
    (recF rec : ℕ → HvState ℝ → ℝ × HvState ℝ) : Prop :=
  ∀ (A : List ℕ) (S : HvState ℝ), HvLists pos N.length j A S → (∀ p ∈ A, p ∈ N) → HeadGood ref low e d S → CacheGood x ref low e j A S →
    recF A.length S = rec A.length S ∧ GA ref low e (j + 1) (rec A.length S).1 ∧ links (rec A.length S).2 = links S ∧
      GMono x ref low e S (rec A.length S).2 ∧ CacheGood x ref low e j A (rec A.length S).2 ∧ ∀ i, j < i → (rec A.length S).2.bound i = S.bound i

theorem area_hv3dLoop (x : ℕ → ℕ → ℝ) (ref : ℕ → ℝ) : ∀ (fuel pp : ℕ) (T : List ℕ) (a v : ℝ) (S : HvState ℝ),
    (hv3dLoop x ref fuel pp T a v S).2.area = S.area ∧ (hv3dLoop x ref fuel pp T a v S).2.vol = S.vol
  | 0, _, _, _, _, _ => ⟨rfl, rfl⟩
  | fuel + 1, pp, T, a, v, S => by
    unfold hv3dLoop
    dsimp only
    by_cases hig : S.ignore pp ≥ 2
    · simp only [if_pos hig]
      by_cases hn : S.next 2 pp = 0
      · rw [if_pos hn]; exact ⟨rfl, rfl⟩
      · rw [if_neg hn]; exact area_hv3dLoop x ref fuel _ _ _ _ _
    · simp only [if_neg hig]
      cases hu : hv3dUpdate x ref T pp a with
      | none =>
        dsimp only
        by_cases hn : S.next 2 pp = 0
        · rw [if_pos hn]; exact ⟨rfl, rfl⟩
        · rw [if_neg hn]
          exact area_hv3dLoop x ref fuel _ _ _ _ { S with ignore := upd S.ignore pp 2 }
      | some r =>
        dsimp only
        by_cases hn : S.next 2 pp = 0
        · rw [if_pos hn]; exact ⟨rfl, rfl⟩
        · rw [if_neg hn]; exact area_hv3dLoop x ref fuel _ _ _ _ _

theorem rest_hv3dRef (x : ℕ → ℕ → ℝ) (ref : ℕ → ℝ) (c : ℕ) (S : HvState ℝ) :
    (hv3dRef x ref c S).2.area = S.area ∧ (hv3dRef x ref c S).2.vol = S.vol ∧ (hv3dRef x ref c S).2.bound = S.bound := by
  unfold hv3dRef
  dsimp only
  split
  · exact ⟨rfl, rfl, rfl⟩
  · exact ⟨(area_hv3dLoop ..).1, (area_hv3dLoop ..).2, bound_hv3dLoop ..⟩

theorem grid_base (hr : Nearest binary64 rnd) (hd : GridData x ref low e d N) (hd3 : 3 ≤ d)
    (hsort : ∀ i < d, ∀ p ∈ N, ∀ q ∈ N, pos i p < pos i q → x p i ≤ x q i) :
    GoodRec x ref low e pos N d 2 (hv3dRefF rnd x ref) (hv3dRef x ref) := by
  intro A S hA hAN hhead _
  obtain ⟨l, hmem, hl, hlink⟩ := hA.lists 2 (le_refl _) (le_refl _)
  have hlen : l.length = A.length := length_eq_of_mem_iff (pairwise_pos_nodup hl) hA.nodup hmem
  have hlN : ∀ p ∈ l, p ∈ N := fun p hp => hAN p ((hmem p).1 hp)
  have hlen2 := hA.len
  have hs := hv3dRefF_sim (sim3_grid hr hd hd3) (pos := pos) S (l := l)
    (by rintro rfl; exact hA.ne (List.length_eq_zero_iff.1 hlen.symm)) hl (fun hz => hA.zero ((hmem 0).1 hz)) hlink hlN (by omega)
    (fun p hp k hk => hd.below p (hlN p hp) k (by omega)) (fun p hp q hq => hsort 2 (by omega) p (hlN p hp) q (hlN q hq))
  rw [hlen] at hs
  obtain ⟨r1, r2, r3⟩ := rest_hv3dRef x ref A.length S
  refine ⟨Prod.ext hs.2.1 hs.1, hs.2.2.toGA, links_hv3dRef x ref _ S, GMono.of_eq r1 r2, ?_, fun i _ => by rw [r3]⟩
  intro i h3 h2; omega

variable {j : ℕ} {l : List ℕ} {S0 : HvState ℝ}

theorem grid_skip {recF rec : ℕ → HvState ℝ → ℝ × HvState ℝ} (hrec : GoodRec x ref low e pos N d j recF rec) {A : List ℕ} {S : HvState ℝ}
    (hA : HvLists pos N.length j A S) (hAN : ∀ p ∈ A, p ∈ N) (hhead : HeadGood ref low e d S) (hcd : CacheGood x ref low e j A S) {p : ℕ}
    (hpa : GA ref low e (j + 1) (S.area (j + 1) (S.prev (j + 1) p))) :
    skipOrRecurse recF (j + 1) A.length p S = skipOrRecurse rec (j + 1) A.length p S ∧
      links (skipOrRecurse rec (j + 1) A.length p S) = links S ∧ GMono x ref low e S (skipOrRecurse rec (j + 1) A.length p S) ∧
      CacheGood x ref low e j A (skipOrRecurse rec (j + 1) A.length p S) ∧
      (∀ i, j < i → (skipOrRecurse rec (j + 1) A.length p S).bound i = S.bound i) ∧
      GA ref low e (j + 1) ((skipOrRecurse rec (j + 1) A.length p S).area (j + 1) p) := by
  unfold skipOrRecurse
  by_cases hig : S.ignore p ≥ j + 1
  · simp only [if_pos hig]
    have hm : GMono x ref low e S { S with area := upd2 S.area (j + 1) p (S.area (j + 1) (S.prev (j + 1) p)) } := GMono.of_area rfl rfl hpa
    refine ⟨trivial, rfl, hm, hcd.mono hm (fun _ _ _ => le_refl _), fun _ _ => trivial, ?_⟩
    rw [upd2_at, if_pos ⟨rfl, rfl⟩]; exact hpa
  · obtain ⟨e1, g1, l1, m1, c1, b1⟩ := hrec A S hA hAN hhead hcd
    simp only [if_neg hig, e1]
    have hm2 : GMono x ref low e (rec A.length S).2 { (rec A.length S).2 with area := upd2 (rec A.length S).2.area (j + 1) p (rec A.length S).1 } :=
      GMono.of_area rfl rfl g1
    have hgp : GA ref low e (j + 1) (upd2 (rec A.length S).2.area (j + 1) p (rec A.length S).1 (j + 1) p) := by
      rw [upd2_at, if_pos ⟨rfl, rfl⟩]; exact g1
    refine ⟨trivial, ?_⟩
    split
    · exact ⟨l1, m1.trans (hm2.trans (GMono.of_eq rfl rfl)), c1.mono (hm2.trans (GMono.of_eq rfl rfl)) (fun _ _ _ => le_refl _), b1, hgp⟩
    · exact ⟨l1, m1.trans hm2, c1.mono hm2 (fun _ _ _ => le_refl _), b1, hgp⟩

/-- The loop that deletes nodes. -/
theorem grid_delLoop (hsort : ∀ p ∈ l, ∀ q ∈ l, pos (j + 1) p < pos (j + 1) q → x p (j + 1) ≤ x q (j + 1))
    (hc : LvlLinks pos N.length j l S0) (b : ℝ) : ∀ (m : ℕ) (r s : List ℕ) (S : HvState ℝ), r.length = m → r ≠ [] →
    l = r ++ s → links S = delLinks (j + 1) (links S0) s → S.area = S0.area → S.vol = S0.vol → S.bound (j + 1) = b →
    (∀ i, j + 1 < i → S.bound i = S0.bound i) → CacheGood x ref low e j r S →
    ∃ (r' : List ℕ) (p1 : ℕ) (s' : List ℕ) (S' : HvState ℝ),
      hvDelLoop x (j + 1) m (s.headD 0) (lastD 0 r) S = (r'.length + 1, s'.headD 0, p1, S') ∧
      l = r' ++ p1 :: s' ∧ links S' = delLinks (j + 1) (links S0) s' ∧ S'.area = S0.area ∧ S'.vol = S0.vol ∧
      (∀ i, j + 1 < i → S'.bound i = S0.bound i) ∧ CacheGood x ref low e j (r' ++ [p1]) S' ∧ ∀ q ∈ r', x q (j + 1) < b := by
  intro m
  induction m with
  | zero =>
    intro r s S hlen hne
    exact absurd (List.length_eq_zero_iff.1 hlen) hne
  | succ m ih =>
    intro r s S hlen hne hl hlnk ha hv hb hbi hcd
    rcases List.eq_nil_or_concat r with rfl | ⟨r', p1, rfl⟩
    · exact absurd rfl hne
    rw [List.concat_eq_append] at *
    have hl' : l = r' ++ p1 :: s := by rw [hl]; simp
    have hlen' : r'.length = m := by simp at hlen; exact hlen
    have hj2 := hc.j2
    have hprev : S.prev (j + 1) p1 = lastD 0 r' := by
      have h1 := delLinks_of_not (j + 1) (links S0) s (j + 1) (by omega)
      have h2 : S.prev = (delLinks (j + 1) (links S0) s).2 := congrArg Prod.snd hlnk
      have hat := LinkedFrom.at (hl' ▸ hc.link : Linked _ _ (r' ++ p1 :: s))
      rw [h2, h1.2]; exact hat.1
    rw [lastD_append_singleton]
    unfold hvDelLoop
    by_cases hcond : m + 1 > 1 ∧ (x p1 (j + 1) > S.bound (j + 1) ∨ x (S.prev (j + 1) p1) (j + 1) ≥ S.bound (j + 1))
    · rw [if_pos hcond]
      have hlnk1 : links (hvDelete x p1 (j + 1) S) = delLinks (j + 1) (links S0) (p1 :: s) := by
        rw [links_hvDelete p1 (j + 1) (by omega), hlnk]; rfl
      have hprev1 : (hvDelete x p1 (j + 1) S).prev (j + 1) p1 = lastD 0 r' := by
        have h := delLinks_of_not (j + 1) (links S0) (p1 :: s) (j + 1) (by omega)
        have h2 : (hvDelete x p1 (j + 1) S).prev = (delLinks (j + 1) (links S0) (p1 :: s)).2 := congrArg Prod.snd hlnk1
        have hat := LinkedFrom.at (hl' ▸ hc.link : Linked _ _ (r' ++ p1 :: s))
        rw [h2, h.2]; exact hat.1
      obtain ⟨-, a1, v1, hbd⟩ := hvDelete_rest (x := x) p1 (j + 1) (by omega) S
      have hne' : r' ≠ [] := by
        intro he
        rw [he] at hlen'
        simp at hlen'
        omega
      dsimp only
      rw [hprev1]
      refine ih r' (p1 :: s) _ hlen' hne' hl' hlnk1 (a1.trans ha) (v1.trans hv) ?_ ?_ ?_
      · rw [hbd, if_neg (by omega)]; exact hb
      · intro i hi
        rw [hbd, if_neg (by omega)]; exact hbi i hi
      · have : CacheGood x ref low e j (r' ++ [p1]) (hvDelete x p1 (j + 1) S) := by
          refine hcd.mono (GMono.of_eq a1 v1) ?_
          intro i h3 hi
          rw [hbd, if_pos (by omega)]
          exact min_le_left _ _
        intro i h3 hi q hq
        exact this i h3 hi q (List.mem_append_left _ hq)
    · rw [if_neg hcond]
      refine ⟨r', p1, s, S, by rw [hlen'], hl', hlnk, ha, hv, hbi, hcd, ?_⟩
      intro q hq
      have hm : m + 1 > 1 := by
        have := List.length_pos_of_mem hq
        omega
      have hx : ¬ x (S.prev (j + 1) p1) (j + 1) ≥ S.bound (j + 1) := fun hh => hcond ⟨hm, Or.inr hh⟩
      rw [hprev, hb] at hx
      refine lt_of_le_of_lt ?_ (not_le.1 hx)
      rcases List.eq_nil_or_concat r' with rfl | ⟨r2, p2, rfl⟩
      · simp at hq
      · rw [List.concat_eq_append] at *
        rw [lastD_append_singleton] at *
        rcases List.mem_append.1 hq with hq | hq
        · have hpw := hc.sorted
          rw [hl'] at hpw
          have := (List.pairwise_append.1 (List.pairwise_append.1 hpw).1).2.2 q hq p2 (by simp)
          exact hsort q (by rw [hl']; simp [hq]) p2 (by rw [hl']; simp) this
        · simp at hq; rw [hq]

/-- The products for one point. -/
theorem grid_box (hr : Nearest binary64 rnd) (hd : GridData x ref low e d N) {p : ℕ} (hp : p ∈ N) : ∀ m ≤ d,
    boxProductF rnd x ref p m = boxProduct x ref p m ∧ GA ref low e m (boxProduct x ref p m)
  | 0, _ => ⟨rfl, ⟨1, by simp [boxProduct, gE]⟩, by simp [boxProduct], by simp [boxProduct, gW]⟩
  | m + 1, hm => by
    obtain ⟨h1, h2⟩ := grid_box hr hd hp m (by omega)
    obtain ⟨e1, g1⟩ := grid_vfirst hr hd (i := m) (by omega) h2 (HvCoord.node hp) HvCoord.refk (hd.below p hp m (by omega)).le
    refine ⟨?_, g1.toGA⟩
    unfold boxProductF boxProduct
    rw [h1]; exact e1

theorem grid_areaInit (hr : Nearest binary64 rnd) (hd : GridData x ref low e d N) {p : ℕ} (hp : p ∈ N) (S : HvState ℝ) : ∀ m ≤ d,
    hvAreaInitF rnd x ref p m S = hvAreaInit x ref p m S
  | 0, _ => rfl
  | m + 1, hm => by
    have h1 := grid_areaInit hr hd hp S m (by omega)
    have h2 : (hvAreaInit x ref p m S).area m p = boxProduct x ref p m := by
      rw [(hvAreaInit_rest p m S).2, if_pos ⟨rfl, le_refl _⟩]
    have h3 := (grid_vfirst hr hd (i := m) (by omega) (grid_box hr hd hp m (by omega)).2 (HvCoord.node hp) HvCoord.refk
      (hd.below p hp m (by omega)).le).1
    unfold hvAreaInitF hvAreaInit
    rw [h1]
    dsimp only
    rw [h2, h3]

/-- The loop that inserts the deleted nodes again. -/
theorem grid_mainLoop (hr : Nearest binary64 rnd) (hd : GridData x ref low e d N) {recF rec : ℕ → HvState ℝ → ℝ × HvState ℝ}
    (hrec : GoodRec x ref low e pos N d j recF rec) (hjd : j + 1 < d) (hlN : ∀ p ∈ l, p ∈ N)
    (hsort : ∀ p ∈ l, ∀ q ∈ l, pos (j + 1) p < pos (j + 1) q → x p (j + 1) ≤ x q (j + 1)) (hc : LvlLinks pos N.length j l S0) :
    ∀ (s r' : List ℕ) (p1 fuel c : ℕ) (hyperv : ℝ) (S : HvState ℝ), l = r' ++ p1 :: s → s.length ≤ fuel → c = r'.length + 1 →
      links S = delLinks (j + 1) (links S0) s → HeadGood ref low e d S → CacheGood x ref low e j (r' ++ [p1]) S →
      (∀ q ∈ r' ++ [p1], GA ref low e (j + 1) (S.area (j + 1) q) ∧ GV ref low e (j + 1) (x q (j + 1)) (S.vol (j + 1) q)) →
      GV ref low e (j + 1) (x p1 (j + 1)) hyperv →
      hvMainLoopF rnd recF x (j + 1) fuel c (s.headD 0) p1 hyperv S = hvMainLoop rec x (j + 1) fuel c (s.headD 0) p1 hyperv S ∧
        links (hvMainLoop rec x (j + 1) fuel c (s.headD 0) p1 hyperv S).2.2 = links S0 ∧
        GMono x ref low e S (hvMainLoop rec x (j + 1) fuel c (s.headD 0) p1 hyperv S).2.2 ∧
        CacheGood x ref low e j l (hvMainLoop rec x (j + 1) fuel c (s.headD 0) p1 hyperv S).2.2 ∧
        (∀ q ∈ l, GA ref low e (j + 1) ((hvMainLoop rec x (j + 1) fuel c (s.headD 0) p1 hyperv S).2.2.area (j + 1) q) ∧
          GV ref low e (j + 1) (x q (j + 1)) ((hvMainLoop rec x (j + 1) fuel c (s.headD 0) p1 hyperv S).2.2.vol (j + 1) q)) ∧
        (hvMainLoop rec x (j + 1) fuel c (s.headD 0) p1 hyperv S).2.1 ∈ l ∧
        GV ref low e (j + 1) (x (hvMainLoop rec x (j + 1) fuel c (s.headD 0) p1 hyperv S).2.1 (j + 1))
          (hvMainLoop rec x (j + 1) fuel c (s.headD 0) p1 hyperv S).1 ∧
        ∀ i, j + 1 < i → (hvMainLoop rec x (j + 1) fuel c (s.headD 0) p1 hyperv S).2.2.bound i = S.bound i := by
  intro s
  induction s with
  | nil =>
    intro r' p1 fuel c hyperv S hl hf hcl hlnk hh hcd hdef hv
    have hres : hvMainLoop rec x (j + 1) fuel c (([] : List ℕ).headD 0) p1 hyperv S = (hyperv, p1, S) := by
      cases fuel with
      | zero => rfl
      | succ f => unfold hvMainLoop; rw [if_pos (by rfl)]
    have hresF : hvMainLoopF rnd recF x (j + 1) fuel c (([] : List ℕ).headD 0) p1 hyperv S = (hyperv, p1, S) := by
      cases fuel with
      | zero => rfl
      | succ f => unfold hvMainLoopF; rw [if_pos (by rfl)]
    rw [hres, hresF]
    exact ⟨rfl, hlnk, GMono.of_eq rfl rfl, hl ▸ hcd, hl ▸ hdef, by rw [hl]; simp, hv, fun _ _ => rfl⟩
  | cons p0 s ih =>
    intro r' p1 fuel c hyperv S hl hf hcl hlnk hh hcd hdef hv
    obtain ⟨f, rfl⟩ : ∃ f, fuel = f + 1 := ⟨fuel - 1, by simp at hf; omega⟩
    have hj2 := hc.j2
    have hnd := pairwise_pos_nodup hc.sorted
    have hl' : l = (r' ++ [p1]) ++ p0 :: s := by rw [hl]; simp
    have hl'' : l = (r' ++ [p1] ++ [p0]) ++ s := by rw [hl]; simp
    have hp0l : p0 ∈ l := by rw [hl]; simp
    have hp1l : p1 ∈ l := by rw [hl]; simp
    have hp0 : ¬ p0 = 0 := fun hz => hc.zero (hz ▸ hp0l)
    have hle : x p1 (j + 1) ≤ x p0 (j + 1) := by
      have hpw := hc.sorted
      rw [hl] at hpw
      exact hsort p1 hp1l p0 hp0l ((List.pairwise_cons.1 (List.pairwise_append.1 hpw).2.1).1 p0 (by simp))
    obtain ⟨eV, gV⟩ := grid_vadd hr hd hjd hv (hdef p1 (by simp)).1 (HvCoord.node (hlN p1 hp1l)) (HvCoord.node (hlN p0 hp0l)) hle
    unfold hvMainLoop hvMainLoopF
    rw [if_neg (show ¬ (p0 :: s).headD 0 = 0 from hp0), if_neg (show ¬ (p0 :: s).headD 0 = 0 from hp0)]
    dsimp only [List.headD_cons]
    rw [eV]
    set S1 : HvState ℝ := { S with bound := upd S.bound (j + 1) (x p0 (j + 1)) } with hS1
    obtain ⟨-, a2, v2, hbd⟩ := hvReinsert_rest (x := x) p0 (j + 1) (by omega) S1
    set S2 := hvReinsert x p0 (j + 1) S1 with hS2
    have hlnk2 : links S2 = delLinks (j + 1) (links S0) s := by
      rw [hS2, links_hvReinsert p0 (j + 1) (by omega)]
      have : links S1 = links S := rfl
      rw [this, hlnk]
      exact relink_delLinks (j + 1) (links S0) p0 s (r' ++ [p1]) (hl' ▸ hnd) (hl' ▸ hc.zero) (fun i h2 hi => hl' ▸ hc.lists i h2 hi)
    have hat := LinkedFrom.at (hl' ▸ hc.link : Linked _ _ ((r' ++ [p1]) ++ p0 :: s))
    have hnext : S2.next (j + 1) p0 = s.headD 0 := by
      have hh := delLinks_of_not (j + 1) (links S0) s (j + 1) (by omega)
      have h2 : S2.next = (delLinks (j + 1) (links S0) s).1 := congrArg Prod.fst hlnk2
      rw [h2, hh.1]; exact hat.2.2.1
    have hprev : S2.prev (j + 1) p0 = p1 := by
      have hh := delLinks_of_not (j + 1) (links S0) s (j + 1) (by omega)
      have h2 : S2.prev = (delLinks (j + 1) (links S0) s).2 := congrArg Prod.snd hlnk2
      rw [h2, hh.2]
      have := hat.1
      rw [lastD_append_singleton] at this
      exact this
    set V := hyperv + S.area (j + 1) p1 * (x p0 (j + 1) - x p1 (j + 1)) with hV
    set S3 : HvState ℝ := { S2 with vol := upd2 S2.vol (j + 1) p0 V } with hS3
    have hm3 : GMono x ref low e S S3 := (GMono.of_eq (S' := S2) a2 v2).trans (GMono.of_vol rfl rfl gV)
    have hlists := hc.hvLists (S := S3) hl'' (by simp) hlnk2
    have hbnd3 : ∀ i, 2 ≤ i → i ≤ j → S3.bound i = min (S.bound i) (x p0 i) := by
      intro i h2 hi
      show S2.bound i = _
      rw [hbd, if_pos (by omega)]
      show min (upd S.bound (j + 1) (x p0 (j + 1)) i) _ = _
      rw [upd_ne _ _ (by omega)]
    have hcd3 : CacheGood x ref low e j (r' ++ [p1] ++ [p0]) S3 := by
      intro i h3' hi q hq hlt
      rw [hbnd3 i (by omega) hi] at hlt
      rcases List.mem_append.1 hq with hq | hq
      · have := hcd i h3' hi q hq (lt_of_lt_of_le hlt (min_le_left _ _))
        exact ⟨hm3.1 _ _ this.1, hm3.2 _ _ this.2⟩
      · simp at hq
        rw [hq] at hlt
        exact absurd (lt_of_lt_of_le hlt (min_le_right _ _)) (lt_irrefl _)
    have hpa : GA ref low e (j + 1) (S3.area (j + 1) (S3.prev (j + 1) p0)) := by
      have : S3.prev (j + 1) p0 = p1 := hprev
      rw [this]; exact hm3.1 _ _ (hdef p1 (by simp)).1
    obtain ⟨e4, l4, m4, c4, b4, d4⟩ := grid_skip hrec hlists (fun p hp => hlN p (by rw [hl'']; exact List.mem_append_left _ hp))
      (hh.mono hm3) hcd3 hpa
    have hlen : c + 1 = (r' ++ [p1] ++ [p0]).length := by rw [hcl]; simp
    rw [hlen, hnext, e4]
    have hdef4 : ∀ q ∈ (r' ++ [p1]) ++ [p0], GA ref low e (j + 1) ((skipOrRecurse rec (j + 1) (r' ++ [p1] ++ [p0]).length p0 S3).area (j + 1) q) ∧
        GV ref low e (j + 1) (x q (j + 1)) ((skipOrRecurse rec (j + 1) (r' ++ [p1] ++ [p0]).length p0 S3).vol (j + 1) q) := by
      intro q hq
      rcases List.mem_append.1 hq with hq | hq
      · have := hdef q hq
        exact ⟨m4.1 _ _ (hm3.1 _ _ this.1), m4.2 _ _ (hm3.2 _ _ this.2)⟩
      · simp at hq
        rw [hq]
        refine ⟨d4, m4.2 _ _ ?_⟩
        show GV ref low e (j + 1) (x p0 (j + 1)) (upd2 S2.vol (j + 1) p0 V (j + 1) p0)
        rw [upd2_at, if_pos ⟨rfl, rfl⟩]; exact gV
    obtain ⟨e5, l5, m5, c5, d5, p5, v5, b5⟩ := ih (r' ++ [p1]) p0 f (r' ++ [p1] ++ [p0]).length V _ hl'
      (by simp at hf; omega) (by simp) (l4.trans hlnk2) (hh.mono (hm3.trans m4)) c4 hdef4 gV
    refine ⟨e5, l5, hm3.trans (m4.trans m5), c5, d5, p5, v5, ?_⟩
    intro i hi
    rw [b5 i hi, b4 i (by omega)]
    show S2.bound i = _
    rw [hbd, if_neg (by omega)]
    exact upd_ne _ _ (by omega)

/-- One level of the recursion. -/
theorem grid_level (hr : Nearest binary64 rnd) (hd : GridData x ref low e d N) {recF rec : ℕ → HvState ℝ → ℝ × HvState ℝ}
    (hrec : GoodRec x ref low e pos N d j recF rec) (hj2 : 2 ≤ j) (hjd : j + 1 < d)
    (hsort : ∀ i < d, ∀ p ∈ N, ∀ q ∈ N, pos i p < pos i q → x p i ≤ x q i) :
    GoodRec x ref low e pos N d (j + 1) (hvLevelF rnd recF x ref (j + 1)) (hvLevel rec x ref (j + 1)) := by
  intro A S hA hAN hh hcd
  obtain ⟨l, hmem, hsorted, hlink⟩ := hA.lists (j + 1) (by omega) (le_refl _)
  have hlen : l.length = A.length := length_eq_of_mem_iff (pairwise_pos_nodup hsorted) hA.nodup hmem
  have hlen2 := hA.len
  have hlne : l ≠ [] := by
    rintro rfl
    exact hA.ne (List.length_eq_zero_iff.1 hlen.symm)
  have h0 : 0 ∉ l := fun hz => hA.zero ((hmem 0).1 hz)
  have hlN : ∀ p ∈ l, p ∈ N := fun p hp => hAN p ((hmem p).1 hp)
  have hsl : ∀ p ∈ l, ∀ q ∈ l, pos (j + 1) p < pos (j + 1) q → x p (j + 1) ≤ x q (j + 1) :=
    fun p hp q hq => hsort _ hjd p (hlN p hp) q (hlN q hq)
  have hc : LvlLinks pos N.length j l S :=
    { j2 := hj2, sorted := hsorted, zero := h0, len := by omega, link := hlink
      lists := by
        intro i h2 hi
        obtain ⟨m, hm1, hm2, hm3⟩ := hA.lists i h2 (by omega)
        exact ⟨m, fun p => (hm1 p).trans (hmem p).symm, hm2, hm3⟩ }
  have hp0 : S.prev (j + 1) 0 = lastD 0 l := LinkedFrom.last hlink
  have hreset := hvReset_spec (j + 1) l [] A.length S (by rw [List.append_nil]; exact hlink) h0 (pairwise_pos_nodup hsorted) (by omega) rfl
  set S1 : HvState ℝ := { S with ignore := fun p => if p ∈ l ∧ S.ignore p < j + 1 then 0 else S.ignore p } with hS1
  have hcd1 : CacheGood x ref low e (j + 1) l S1 := fun i h3 hi q hq hlt => hcd i h3 hi q ((hmem q).1 hq) hlt
  have hc1 : LvlLinks pos N.length j l S1 :=
    { j2 := hc.j2, sorted := hc.sorted, zero := hc.zero, len := hc.len, link := hc.link, lists := hc.lists }
  obtain ⟨r', p1, s', S2, g1, g2, g3, a2, v2, b2, c2, x2⟩ := grid_delLoop hsl hc1 (S1.bound (j + 1)) A.length l [] S1
    hlen hlne (by rw [List.append_nil]) rfl rfl rfl rfl (fun _ _ => rfl) (fun i h3 hi q hq => hcd1 i h3 (by omega) q hq)
  rw [List.headD_nil] at g1
  have hdefR : ∀ q ∈ r', GA ref low e (j + 1) (S2.area (j + 1) q) ∧ GV ref low e (j + 1) (x q (j + 1)) (S2.vol (j + 1) q) := by
    intro q hq
    rw [a2, v2]
    exact hcd1 (j + 1) (by omega) (le_refl _) q (by rw [g2]; exact List.mem_append_left _ hq) (x2 q hq)
  have hp1l : p1 ∈ l := by rw [g2]; simp
  have hlistsR : ∀ S3 : HvState ℝ, links S3 = links S2 → HvLists pos N.length j (r' ++ [p1]) S3 := fun S3 h3 =>
    hc.hvLists (s := s') (by rw [g2]; simp) (by simp) (h3.trans g3)
  have hlenR : r'.length + 1 = (r' ++ [p1]).length := by simp
  have hprev : S2.prev (j + 1) p1 = lastD 0 r' := by
    have hh := delLinks_of_not (j + 1) (links S) s' (j + 1) (by omega)
    have h2 : S2.prev = (delLinks (j + 1) (links S) s').2 := congrArg Prod.snd g3
    have hat := LinkedFrom.at (g2 ▸ hlink : Linked _ _ (r' ++ p1 :: s'))
    rw [h2, hh.2]; exact hat.1
  have hRN : ∀ p ∈ r' ++ [p1], p ∈ N := by
    intro p hp
    refine hlN p ?_
    rw [g2]
    rcases List.mem_append.1 hp with hp | hp
    · exact List.mem_append_left _ hp
    · simp at hp; rw [hp]; simp
  have hmono2 : GMono x ref low e S S2 := GMono.of_eq a2 v2
  -- the rest of the level, from the state with `vol` of `p1` set
  have tail : ∀ (V : ℝ) (S3 : HvState ℝ), links S3 = links S2 → S3.bound = S2.bound → GMono x ref low e S2 S3 →
      GV ref low e (j + 1) (x p1 (j + 1)) (S3.vol (j + 1) p1) → GV ref low e (j + 1) (x p1 (j + 1)) V →
      ∀ mF m, mF = hvMainLoopF rnd recF x (j + 1) A.length (r'.length + 1) (s'.headD 0) p1 V (skipOrRecurse recF (j + 1) (r'.length + 1) p1 S3) →
        m = hvMainLoop rec x (j + 1) A.length (r'.length + 1) (s'.headD 0) p1 V (skipOrRecurse rec (j + 1) (r'.length + 1) p1 S3) →
      (rnd (mF.1 + rnd (mF.2.2.area (j + 1) mF.2.1 * rnd (ref (j + 1) - x mF.2.1 (j + 1)))), mF.2.2) =
          (m.1 + m.2.2.area (j + 1) m.2.1 * (ref (j + 1) - x m.2.1 (j + 1)), m.2.2) ∧
        GA ref low e (j + 1 + 1) (m.1 + m.2.2.area (j + 1) m.2.1 * (ref (j + 1) - x m.2.1 (j + 1))) ∧ links m.2.2 = links S ∧
        GMono x ref low e S m.2.2 ∧ CacheGood x ref low e (j + 1) A m.2.2 ∧ ∀ i, j + 1 < i → m.2.2.bound i = S.bound i := by
    intro V S3 hl3 hb3 m3 hvol3 hV mF m hmF hm
    have hcd3 : CacheGood x ref low e j (r' ++ [p1]) S3 := c2.mono m3 (fun i _ _ => by rw [hb3])
    have hpa : GA ref low e (j + 1) (S3.area (j + 1) (S3.prev (j + 1) p1)) := by
      have : S3.prev = S2.prev := congrArg Prod.snd hl3
      rw [this, hprev]
      rcases List.mem_cons.1 (lastD_mem 0 r') with hz | hz
      · rw [hz]; exact (hh.mono (hmono2.trans m3)) _ hjd
      · exact m3.1 _ _ (hdefR _ hz).1
    obtain ⟨e4, l4, m4, c4, b4, d4⟩ := grid_skip hrec (hlistsR S3 hl3) hRN (hh.mono (hmono2.trans m3)) hcd3 hpa
    rw [← hlenR] at e4 l4 m4 c4 b4 d4
    have hdef4 : ∀ q ∈ r' ++ [p1], GA ref low e (j + 1) ((skipOrRecurse rec (j + 1) (r'.length + 1) p1 S3).area (j + 1) q) ∧
        GV ref low e (j + 1) (x q (j + 1)) ((skipOrRecurse rec (j + 1) (r'.length + 1) p1 S3).vol (j + 1) q) := by
      intro q hq
      rcases List.mem_append.1 hq with hq | hq
      · have := hdefR q hq
        exact ⟨m4.1 _ _ (m3.1 _ _ this.1), m4.2 _ _ (m3.2 _ _ this.2)⟩
      · simp at hq
        rw [hq]
        exact ⟨d4, m4.2 _ _ hvol3⟩
    obtain ⟨e5, l5, m5, c5, d5, p5, v5, b5⟩ := grid_mainLoop hr hd hrec hjd hlN hsl hc s' r' p1 A.length (r'.length + 1) V _ g2
      (by rw [← hlen, g2]; simp; omega) rfl (l4.trans (hl3.trans g3)) (hh.mono (hmono2.trans (m3.trans m4))) c4 hdef4 hV
    rw [e4, e5, ← hm] at hmF
    rw [← hm] at l5 m5 c5 d5 p5 v5 b5
    subst hmF
    obtain ⟨e6, g6⟩ := grid_vadd hr hd hjd v5 (d5 _ p5).1 (HvCoord.node (hlN _ p5)) HvCoord.refk (hd.below _ (hlN _ p5) _ hjd).le
    refine ⟨by rw [e6], g6.toGA, l5, hmono2.trans (m3.trans (m4.trans m5)), ?_, ?_⟩
    · intro i h3' hi q hq hlt
      rcases Nat.lt_or_ge i (j + 1) with hij | hij
      · exact c5 i h3' (by omega) q ((hmem q).2 hq) hlt
      · have : i = j + 1 := by omega
        subst this
        exact d5 q ((hmem q).2 hq)
    · intro i hi
      rw [b5 i hi, b4 i (by omega), hb3, b2 i hi]
  unfold hvLevel hvLevelF
  dsimp only
  rw [hp0, hreset]
  have e1' : S1.prev (j + 1) 0 = lastD 0 l := hp0
  rw [e1', g1]
  dsimp only
  by_cases hcc : r'.length + 1 > 1
  · simp only [if_pos hcc]
    have hq : lastD 0 r' ∈ r' := by
      rcases List.eq_nil_or_concat r' with rfl | ⟨r2, p2, rfl⟩
      · simp at hcc
      · rw [List.concat_eq_append, lastD_append_singleton]; simp
    have hql : lastD 0 r' ∈ l := by rw [g2]; exact List.mem_append_left _ hq
    have hle : x (lastD 0 r') (j + 1) ≤ x p1 (j + 1) := by
      have hpw := hsorted
      rw [g2] at hpw
      exact hsl _ hql p1 hp1l ((List.pairwise_append.1 hpw).2.2 _ hq p1 (by simp))
    obtain ⟨e3, g3'⟩ := grid_vadd hr hd hjd (hdefR _ hq).2 (hdefR _ hq).1 (HvCoord.node (hlN _ hql)) (HvCoord.node (hlN p1 hp1l)) hle
    rw [hprev, e3]
    refine tail _ { S2 with vol := upd2 S2.vol (j + 1) p1 _ } rfl rfl (GMono.of_vol rfl rfl g3') ?_ g3' _ _ rfl rfl
    show GV ref low e (j + 1) (x p1 (j + 1)) (upd2 S2.vol (j + 1) p1 _ (j + 1) p1)
    rw [upd2_at, if_pos ⟨rfl, rfl⟩]; exact g3'
  · simp only [if_neg hcc]
    have hz : GV ref low e (j + 1) (x p1 (j + 1)) 0 :=
      ⟨OnGrid.zero _, le_refl _, mul_nonneg (hd.W0 _ hjd.le) (sub_nonneg.2 (hd.lowle p1 (hlN p1 hp1l) _ hjd))⟩
    rw [grid_areaInit hr hd (hlN p1 hp1l) S2 (j + 1) hjd.le]
    obtain ⟨⟨ar, har⟩, hi2⟩ := hvAreaInit_rest (x := x) (ref := ref) p1 (j + 1) S2
    have hma : GMono x ref low e S2 (hvAreaInit x ref p1 (j + 1) S2) := by
      refine ⟨fun i p h => ?_, fun i p h => by rw [har]; exact h⟩
      rw [hi2]
      split
      · rename_i h'
        exact (grid_box hr hd (hlN p1 hp1l) i (by omega)).2
      · exact h
    refine tail 0 { hvAreaInit x ref p1 (j + 1) S2 with vol := upd2 (hvAreaInit x ref p1 (j + 1) S2).vol (j + 1) p1 0 } ?_ ?_
      (hma.trans (GMono.of_vol rfl rfl hz)) ?_ hz _ _ rfl rfl
    · rw [har]; rfl
    · rw [har]
    · show GV ref low e (j + 1) (x p1 (j + 1)) (upd2 (hvAreaInit x ref p1 (j + 1) S2).vol (j + 1) p1 0 (j + 1) p1)
      rw [upd2_at, if_pos ⟨rfl, rfl⟩]; exact hz

/-- The recursion. -/
theorem grid_rec (hr : Nearest binary64 rnd) (hd : GridData x ref low e d N)
    (hsort : ∀ i < d, ∀ p ∈ N, ∀ q ∈ N, pos i p < pos i q → x p i ≤ x q i) : ∀ k, k + 2 < d →
    GoodRec x ref low e pos N d (k + 2) (hvRecF rnd x ref k) (hvRec x ref k)
  | 0, h => grid_base hr hd (by omega) hsort
  | k + 1, h => grid_level hr hd (grid_rec hr hd hsort k (by omega)) (by omega) (by omega) hsort

end Moo
