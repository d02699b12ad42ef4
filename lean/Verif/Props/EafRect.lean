import Verif.Lemmas.EafRect
import Verif.Props.Eaf2d
import Verif.Props.Percentile
import Mathlib.Order.Interval.Finset.Nat

/-!
# Properties of the rectangles of the EAF differences: C43
-/

set_option autoImplicit false
set_option linter.unusedSectionVars false

namespace Moo

open Classical

variable {α : Type*} [LinearOrder α]

/-- The number of the runs `lo .. hi - 1` that attain `(x, y)`. -/
noncomputable def attainedBetween (pts : ℕ → ℕ → α) (cumsize : ℕ → ℕ) (lo hi : ℕ) (x y : α) : ℕ :=
  ((Finset.Ico lo hi).filter (fun r => Attains pts cumsize 2 r (vec2 x y))).card

theorem mapM_range_eq {β γ : Type*} {f : ℕ → Option γ} {c : β → γ} (l : List β) (h : ∀ i (hi : i < l.length), f i = some (c l[i])) :
    (List.range l.length).mapM f = some (l.map c) := by
  induction l using List.reverseRecOn with
  | nil => rfl
  | append_singleton l b ih =>
    rw [List.length_append, List.length_singleton, List.range_succ, List.mapM_append, ih]
    · have := h l.length (by simp)
      rw [List.mapM_cons, this]
      simp
    · intro i hi
      rw [h i (by simp; omega), List.getElem_append_left hi]

theorem countIn_eq_card (att : ℕ → Bool) (lo hi : ℕ) : countIn att lo hi = ((Finset.Ico lo hi).filter (fun r => att r = true)).card := by
  have h1 : (Finset.Ico lo hi).filter (fun r => att r = true) = (Finset.range hi).filter (fun r => (decide (lo ≤ r) && att r) = true) := by
    ext r
    simp only [Finset.mem_filter, Finset.mem_Ico, Finset.mem_range, Bool.and_eq_true, decide_eq_true_eq]
    tauto
  rw [h1]
  unfold countIn
  have h2 : ((Finset.range hi).filter (fun r => (decide (lo ≤ r) && att r) = true)) =
      ((List.range hi).filter (fun r => decide (lo ≤ r) && att r)).toFinset := by
    ext r; simp
  rw [h2, List.toFinset_card_of_nodup (List.nodup_range.filter _)]

section one
variable {pts : ℕ → ℕ → α} {cumsize : ℕ → ℕ} {s k : ℕ}

/-- What is stored for one level, in memory. -/
def EafStored (nruns : ℕ) (out : List (α × α × (ℕ → ℤ))) (e : EafT α) : Prop :=
  e.nruns = nruns ∧ EafHolds 2 e (out.map (fun o => ((fun d => if d = 0 then o.1 else o.2.1), o.2.2)))

theorem eafCoords_stored {nruns : ℕ} {out : List (α × α × (ℕ → ℤ))} {e : EafT α} (h : EafStored nruns out e) : eafCoords e = some (eafPoints out) := by
  have hs : e.size = out.length := by rw [h.2.size]; simp
  unfold eafCoords eafPoints
  rw [hs]
  apply mapM_range_eq
  intro i hi
  have h0 := h.2.data i (by simpa using hi) 0 (by omega)
  have h1 := h.2.data i (by simpa using hi) 1 (by omega)
  rw [Nat.add_zero] at h0
  rw [h0, h1]
  simp

/-- The colour of a stored point. -/
noncomputable def pointColor (pts : ℕ → ℕ → α) (cumsize : ℕ → ℕ) (s : ℕ) (x y : α) : ℤ :=
  (attainedBetween pts cumsize 0 s x y : ℤ) - (attainedBetween pts cumsize s (2 * s) x y : ℤ)

theorem initColors_stored (hs1 : 1 ≤ s) {out : List (α × α × (ℕ → ℤ))} {e : EafT α} (h : EafStored (2 * s) out e)
    (hL : EafLevelOk pts cumsize (2 * s) k out) : initColors e (2 * s) = some (out.map (fun o => pointColor pts cumsize s o.1 o.2.1)) := by
  have hs : e.size = out.length := by rw [h.2.size]; simp
  unfold initColors
  rw [hs]
  apply mapM_range_eq
  intro i hi
  obtain ⟨A, hA⟩ := bitRep_any e.maxsize (2 * s) e.bits (by rw [h.2.blen, h.1])
  have him : i < e.maxsize := by have := h.2.le; omega
  have hspec := attainedLeftRight_spec hA (k := i) (division := s) him (by omega)
  unfold eafDiffColor
  have hdiv : 2 * s / 2 = s := by omega
  rw [hdiv, hspec]
  dsimp only
  congr 1
  have hcnt : ∀ lo hi', hi' ≤ 2 * s → countIn (A i) lo hi' = attainedBetween pts cumsize lo hi' out[i].1 out[i].2.1 := by
    intro lo hi' hle
    rw [countIn_eq_card]
    unfold attainedBetween
    congr 1
    apply Finset.filter_congr
    intro r hr
    rw [Finset.mem_Ico] at hr
    have h1 := hA.get i him r (by omega)
    have h2 := h.2.bits i (by simpa using hi) r (by rw [h.1]; omega)
    rw [h.1] at h2
    rw [h2] at h1
    have h3 := Option.some.inj h1
    rw [← h3, decide_eq_true_eq]
    simp only [List.getElem_map]
    exact hL.bits _ (List.getElem_mem _) r (by omega)
  rw [hcnt 0 s (by omega), hcnt s (2 * s) le_rfl]
  rfl

theorem attBy_level {out : List (α × α × (ℕ → ℤ))} {nruns : ℕ} (hL : EafLevelOk pts cumsize nruns k out) (x y : α) :
    AttBy (eafPoints out) x y ↔ k ≤ attainCount pts cumsize nruns 2 (vec2 x y) := by
  constructor
  · rintro ⟨p, hp, h1, h2⟩
    obtain ⟨o, ho, rfl⟩ := List.mem_map.1 hp
    refine (hL.reached o ho).trans (attainCount_mono ?_)
    intro d hd
    rcases (by omega : d = 0 ∨ d = 1) with rfl | rfl
    · simpa [vec2] using h1
    · simpa [vec2] using h2
  · intro h
    obtain ⟨o, ho, h1⟩ := hL.cover x y h
    exact ⟨_, List.mem_map.2 ⟨o, ho, rfl⟩, h1⟩

theorem eafPoints_lt {out : List (α × α × (ℕ → ℤ))} {nruns : ℕ} {mx : α} (hr : RunsOk cumsize nruns) (hk : 1 ≤ k)
    (hL : EafLevelOk pts cumsize nruns k out) (hmx : ∀ p < cumsize (nruns - 1), ∀ d < 2, pts p d < mx) : ∀ p ∈ eafPoints out, p.1 < mx ∧ p.2 < mx := by
  rintro ⟨x, y⟩ hp
  have hm := (hL.points.2 x y).1 hp
  obtain ⟨q, h1, h2⟩ := minimalAttained_coord hr hk hm 0 (by omega)
  obtain ⟨q', h3, h4⟩ := minimalAttained_coord hr hk hm 1 (by omega)
  have e1 : pts q 0 = x := by simpa [vec2] using h2
  have e2 : pts q' 1 = y := by simpa [vec2] using h4
  exact ⟨e1 ▸ hmx q h1 0 (by omega), e2 ▸ hmx q' h3 1 (by omega)⟩

/-- The attaining runs of a point of a level are those of every vector above it that is attained by no more than this level. -/
theorem attainedBetween_eq {nruns : ℕ} {x y x' y' : α} (hx : x ≤ x') (hy : y ≤ y')
    (h : attainCount pts cumsize nruns 2 (vec2 x' y') ≤ attainCount pts cumsize nruns 2 (vec2 x y)) {lo hi : ℕ} (hhi : hi ≤ nruns) :
    attainedBetween pts cumsize lo hi x y = attainedBetween pts cumsize lo hi x' y' := by
  have hle : ∀ d < 2, vec2 x y d ≤ vec2 x' y' d := by
    intro d hd
    rcases (by omega : d = 0 ∨ d = 1) with rfl | rfl <;> simp [vec2, hx, hy]
  have hsub : (Finset.range nruns).filter (fun r => Attains pts cumsize 2 r (vec2 x y)) ⊆
      (Finset.range nruns).filter (fun r => Attains pts cumsize 2 r (vec2 x' y')) := by
    intro r
    simp only [Finset.mem_filter]
    rintro ⟨h1, p, h2, h3⟩
    exact ⟨h1, p, h2, fun d hd => (h3 d hd).trans (hle d hd)⟩
  have heq := Finset.eq_of_subset_of_card_le hsub h
  unfold attainedBetween
  congr 1
  apply Finset.filter_congr
  intro r hr
  rw [Finset.mem_Ico] at hr
  have := Finset.ext_iff.1 heq r
  simp only [Finset.mem_filter, Finset.mem_range] at this
  have hrn : r < nruns := by omega
  tauto

/-- What the rectangles of the levels `k, ..., k + n` are. -/
structure LevelRects (pts : ℕ → ℕ → α) (cumsize : ℕ → ℕ) (s : ℕ) (mx : α) (k n : ℕ) (rs : List (DRect α)) : Prop where
  proper : ∀ r ∈ rs, r.lx < r.ux ∧ r.ly < r.uy
  count : ∀ x y, rectCount rs x y = if x < mx ∧ y < mx ∧ k ≤ attainCount pts cumsize (2 * s) 2 (vec2 x y) ∧
    attainCount pts cumsize (2 * s) 2 (vec2 x y) < k + n then 1 else 0
  color : ∀ r ∈ rs, ∃ l, ∀ x y, r.Has x y → attainCount pts cumsize (2 * s) 2 (vec2 x y) = l ∧ r.color = pointColor pts cumsize s x y

theorem rectPair_spec {mx : α} {outa outb : List (α × α × (ℕ → ℤ))} {ea eb : EafT α} (hs1 : 1 ≤ s) (hk : 1 ≤ k) (hr : RunsOk cumsize (2 * s))
    (hmx : ∀ p < cumsize (2 * s - 1), ∀ d < 2, pts p d < mx) (ha : EafStored (2 * s) outa ea) (hb : EafStored (2 * s) outb eb)
    (La : EafLevelOk pts cumsize (2 * s) k outa) (Lb : EafLevelOk pts cumsize (2 * s) (k + 1) outb) (na : outa ≠ []) (nb : outb ≠ [])
    (out : List (DRect α)) :
    ∃ rs, rectPair mx (2 * s) ea eb out = some (out ++ rs) ∧ LevelRects pts cumsize s mx k 1 rs := by
  have hsa : ea.size = outa.length := by rw [ha.2.size]; simp
  have hsb : eb.size = outb.length := by rw [hb.2.size]; simp
  have la := List.length_pos_of_ne_nil na
  have lb := List.length_pos_of_ne_nil nb
  let A := outa.map (fun o => ((o.1, o.2.1), pointColor pts cumsize s o.1 o.2.1))
  have hzip : (eafPoints outa).zip (outa.map (fun o => pointColor pts cumsize s o.1 o.2.1)) = A := by
    unfold eafPoints; rw [List.zip_map']
  have hfst : A.map Prod.fst = eafPoints outa := by
    unfold A eafPoints; rw [List.map_map]; rfl
  have ltA := eafPoints_lt hr hk La hmx
  have ltB := eafPoints_lt hr (by omega) Lb hmx
  have stairA : EafStair (A.map Prod.fst) := by rw [hfst]; unfold eafPoints EafStair; rw [List.pairwise_map]; exact La.chain
  have stairB : EafStair (eafPoints outb) := by unfold eafPoints EafStair; rw [List.pairwise_map]; exact Lb.chain
  obtain ⟨rs, h1, h2⟩ := rectSweep_spec mx ((eafPoints outa).length + (eafPoints outb).length) A (eafPoints outb) mx out
    (by simp [A, eafPoints]) (by simp [A, na]) (by simp [eafPoints, nb]) stairA stairB
    (by
      intro a hma
      exact ltA a.1 (by rw [← hfst]; exact List.mem_map.2 ⟨a, hma, rfl⟩)) ltB (by
      intro b hmb
      rw [hfst, attBy_level La]
      have := (attBy_level Lb b.1 b.2).1 ⟨b, hmb, le_rfl, le_rfl⟩
      omega)
  have hcnt : ∀ x y, rectCount rs x y = if x < mx ∧ y < mx ∧ k ≤ attainCount pts cumsize (2 * s) 2 (vec2 x y) ∧
      attainCount pts cumsize (2 * s) 2 (vec2 x y) < k + 1 then 1 else 0 := by
    intro x y
    rw [h2.count x y]
    apply if_congr _ rfl rfl
    rw [hfst, attBy_level La, attBy_level Lb]
    constructor
    · rintro ⟨g1, g2, g3, g4⟩; exact ⟨g2, g1, g3, by omega⟩
    · rintro ⟨g1, g2, g3, g4⟩; exact ⟨g2, g1, g3, by omega⟩
  refine ⟨rs, ?_, h2.proper, hcnt, ?_⟩
  · rw [rectPair, if_neg (by omega), initColors_stored hs1 ha La, eafCoords_stored ha, eafCoords_stored hb]
    dsimp only
    rw [hzip]
    exact h1
  · intro r hrm
    refine ⟨k, ?_⟩
    intro x y hh
    have hpos : 0 < rectCount rs x y := by
      unfold rectCount
      rw [List.countP_pos_iff]
      exact ⟨r, hrm, by simpa using hh⟩
    rw [hcnt x y] at hpos
    split_ifs at hpos with hc
    · have heq : attainCount pts cumsize (2 * s) 2 (vec2 x y) = k := by omega
      refine ⟨heq, ?_⟩
      obtain ⟨a, hma, e1, e2, e3⟩ := h2.color r hrm
      obtain ⟨o, ho, rfl⟩ := List.mem_map.1 hma
      dsimp only at e1 e2 e3
      have hx : o.1 ≤ x := e1 ▸ hh.1
      have hy : o.2.1 ≤ y := e2.trans hh.2.2.1
      have hle : attainCount pts cumsize (2 * s) 2 (vec2 x y) ≤ attainCount pts cumsize (2 * s) 2 (vec2 o.1 o.2.1) := by
        have := La.reached o ho; omega
      rw [← e3]
      unfold pointColor
      rw [attainedBetween_eq hx hy hle (lo := 0) (hi := s) (by omega), attainedBetween_eq hx hy hle (lo := s) (hi := 2 * s) le_rfl]
    · simp at hpos

theorem rectPairs_spec {mx : α} (hs1 : 1 ≤ s) (hr : RunsOk cumsize (2 * s)) (h0 : 0 < cumsize 0)
    (hmx : ∀ p < cumsize (2 * s - 1), ∀ d < 2, pts p d < mx) : ∀ (n k : ℕ) (outs : List (List (α × α × (ℕ → ℤ)))) (es : List (EafT α)) (out : List (DRect α)),
    1 ≤ k → k + n ≤ 2 * s → List.Forall₂ (EafLevelOk pts cumsize (2 * s)) (List.range' k (n + 1)) outs → List.Forall₂ (EafStored (2 * s)) outs es →
    ∃ rs, rectPairs mx (2 * s) es out = some (out ++ rs) ∧ LevelRects pts cumsize s mx k n rs := by
  intro n
  induction n with
  | zero =>
    intro k outs es out hk hkn h1 h2
    rw [List.range'_succ] at h1
    cases h1 with
    | cons ha h1 =>
      cases h1
      cases h2 with
      | cons hb h2 =>
        cases h2
        refine ⟨[], by simp [rectPairs], by simp, ?_, by simp⟩
        intro x y
        rw [rectCount_nil, if_neg]
        rintro ⟨_, _, g1, g2⟩; omega
  | succ n ih =>
    intro k outs es out hk hkn h1 h2
    rw [List.range'_succ] at h1
    cases h1 with
    | @cons _ outa _ outs' La h1 =>
      cases h2 with
      | @cons _ ea _ es' ha h2 =>
        have h1' := h1
        have h2' := h2
        rw [List.range'_succ] at h1
        cases h1 with
        | @cons _ outb _ outs'' Lb h1 =>
          cases h2 with
          | @cons _ eb _ es'' hb h2 =>
            obtain ⟨rs1, g1, g2⟩ := rectPair_spec (mx := mx) hs1 hk hr hmx ha hb La Lb (La.nonempty hr h0 (by omega)) (Lb.nonempty hr h0 (by omega)) out
            obtain ⟨rs2, g3, g4⟩ := ih (k + 1) (outb :: outs'') (eb :: es'') (out ++ rs1) (by omega) (by omega) h1' h2'
            refine ⟨rs1 ++ rs2, ?_, ?_, ?_, ?_⟩
            · rw [rectPairs, g1]
              dsimp only
              rw [g3, List.append_assoc]
            · intro r hrm
              rcases List.mem_append.1 hrm with hrm | hrm
              · exact g2.proper r hrm
              · exact g4.proper r hrm
            · intro x y
              rw [rectCount_append, g2.count, g4.count]
              generalize attainCount pts cumsize (2 * s) 2 (vec2 x y) = c
              by_cases hx : x < mx ∧ y < mx
              · by_cases hc1 : k ≤ c ∧ c < k + 1
                · rw [if_pos ⟨hx.1, hx.2, hc1⟩, if_neg (by rintro ⟨_, _, g, _⟩; omega), if_pos ⟨hx.1, hx.2, by omega, by omega⟩]
                · rw [if_neg (by rintro ⟨_, _, g⟩; exact hc1 g), Nat.zero_add]
                  apply if_congr _ rfl rfl
                  constructor
                  · rintro ⟨_, _, g5, g6⟩; exact ⟨hx.1, hx.2, by omega, by omega⟩
                  · rintro ⟨_, _, g5, g6⟩; exact ⟨hx.1, hx.2, by omega, by omega⟩
              · rw [if_neg (by tauto), if_neg (by tauto), if_neg (by tauto)]
            · intro r hrm
              rcases List.mem_append.1 hrm with hrm | hrm
              · exact g2.color r hrm
              · exact g4.color r hrm

end one

section main
variable {pts : ℕ → ℕ → α} {cumsize : ℕ → ℕ} {s : ℕ} {sx sy : List ℕ} {fuel : ℕ} {K : Type*} [Field K]

/-- **C43**: two sides of `s` runs each (runs `0 .. s-1` and `s .. 2s-1`), every run with at least one point, all coordinates less than `mx` (infinity).
The call succeeds.  Every rectangle has a lower-left and an upper-right corner.  Every point `(x, y)` below infinity is in exactly one
rectangle if it is attained by at least one run but not by all, and in none otherwise.  The number of attaining runs is the same everywhere in a rectangle,
the colour is the difference of the numbers of left and of right runs that attain any point of the rectangle, and the value returned is
`intervals` times the difference of the fractions. -/
theorem C43_rectangles (hs1 : 1 ≤ s) (hr : RunsOk cumsize (2 * s)) (h0 : 0 < cumsize 0) (hx : EafSortedX pts (cumsize (2 * s - 1)) sx)
    (hy : EafSortedY pts (cumsize (2 * s - 1)) sy) (hf : 2 * cumsize (2 * s - 1) < fuel) (hsize : cumsize (2 * s - 1) ≤ 1073741823)
    (V : EafEnv α) (hV : GrowOk V) (mx : α) (hmx : ∀ p < cumsize (2 * s - 1), ∀ d < 2, pts p d < mx) (intervals : ℕ) :
    ∃ rows : List (DRect α × K), eafdiffComputeRectangles V mx pts cumsize (2 * s) intervals sx sy fuel = some rows ∧
      (∀ r ∈ rows, r.1.lx < r.1.ux ∧ r.1.ly < r.1.uy) ∧
      (∀ x y, rectCount (rows.map Prod.fst) x y =
        if x < mx ∧ y < mx ∧ 1 ≤ attainCount pts cumsize (2 * s) 2 (vec2 x y) ∧ attainCount pts cumsize (2 * s) 2 (vec2 x y) < 2 * s then 1 else 0) ∧
      (∀ r ∈ rows, ∃ l, ∀ x y, r.1.Has x y → attainCount pts cumsize (2 * s) 2 (vec2 x y) = l) ∧
      (∀ r ∈ rows, ∀ x y, r.1.Has x y →
        r.1.color = (attainedBetween pts cumsize 0 s x y : ℤ) - (attainedBetween pts cumsize s (2 * s) x y : ℤ) ∧
        r.2 = (intervals : K) * ((attainedBetween pts cumsize 0 s x y : K) / (s : K) - (attainedBetween pts cumsize s (2 * s) x y : K) / (s : K))) := by
  have hlev : (List.range (2 * s)).map (fun k : ℕ => (k : ℤ) + 1) = (List.range' 1 (2 * s)).map Int.ofNat := by
    rw [List.range'_eq_map_range, List.map_map]
    apply List.map_congr_left
    intro k _
    simp only [Function.comp, Int.ofNat_eq_natCast]
    push_cast; omega
  have hl : ∀ k ∈ List.range' 1 (2 * s), 1 ≤ k ∧ k ≤ 2 * s := by
    intro k hk
    rw [List.mem_range'_1] at hk
    omega
  obtain ⟨res, h1, h2⟩ := eaf2d_levels hr hx hy hf (List.range' 1 (2 * s)) (fun k hk => (hl k hk).1)
  have hsurf : ∃ es, res.mapM (fun out => eafSurface2d V (2 * s) (cumsize (2 * s - 1)) out) = some es ∧ List.Forall₂ (EafStored (2 * s)) res es := by
    clear h1 hlev
    revert hl h2
    generalize List.range' 1 (2 * s) = lv
    intro hl h2
    induction h2 with
    | nil => exact ⟨[], rfl, List.Forall₂.nil⟩
    | @cons k out ks outs h _ ih =>
      obtain ⟨es, g1, g2⟩ := ih (fun k hk => hl k (by simp [hk]))
      have hk := hl k (by simp)
      obtain ⟨e, g3, g5, g4⟩ := eafSurface_of hr h0 hk.1 hk.2 hsize V hV h
      exact ⟨e :: es, by rw [List.mapM_cons, g3, g1]; rfl, List.Forall₂.cons ⟨g5, g4⟩ g2⟩
  obtain ⟨es, g1, g2⟩ := hsurf
  have h2s : 2 * s = (2 * s - 1) + 1 := by omega
  have h2' := h2
  rw [show List.range' 1 (2 * s) = List.range' 1 ((2 * s - 1) + 1) by rw [← h2s]] at h2'
  obtain ⟨rs, g3, g4⟩ := rectPairs_spec (mx := mx) hs1 hr h0 hmx (2 * s - 1) 1 res es [] le_rfl (by omega) h2' g2
  refine ⟨rs.map (fun r => (r, (intervals : K) * (r.color : K) / ((2 * s / 2 : ℕ) : K))), ?_, ?_, ?_, ?_, ?_⟩
  · rw [eafdiffComputeRectangles, hlev, h1]
    dsimp only
    rw [g1]
    dsimp only
    have hes : es ≠ [] := by
      rintro rfl
      cases g2
      have := (forall₂_get h2).1
      simp at this
      omega
    obtain ⟨e, es', rfl⟩ := List.exists_cons_of_ne_nil hes
    have hn : e.nruns = 2 * s := by
      cases g2 with
      | cons h _ => exact h.1
    rw [eafComputeRectangles]
    rw [hn, if_neg (by omega), g3]
    simp
  · intro r hrm
    obtain ⟨r', h3, rfl⟩ := List.mem_map.1 hrm
    exact g4.proper r' h3
  · intro x y
    rw [List.map_map]
    have : (Prod.fst ∘ fun r : DRect α => (r, (intervals : K) * (r.color : K) / ((2 * s / 2 : ℕ) : K))) = id := rfl
    rw [this, List.map_id, g4.count x y]
    apply if_congr _ rfl rfl
    constructor
    · rintro ⟨a1, a2, a, b⟩; exact ⟨a1, a2, a, by omega⟩
    · rintro ⟨a1, a2, a, b⟩; exact ⟨a1, a2, a, by omega⟩
  · intro r hrm
    obtain ⟨r', h3, rfl⟩ := List.mem_map.1 hrm
    obtain ⟨l, h4⟩ := g4.color r' h3
    exact ⟨l, fun x y h => (h4 x y h).1⟩
  · intro r hrm x y hh
    obtain ⟨r', h3, rfl⟩ := List.mem_map.1 hrm
    obtain ⟨l, h4⟩ := g4.color r' h3
    have h5 := (h4 x y hh).2
    refine ⟨h5, ?_⟩
    dsimp only
    rw [h5]
    unfold pointColor
    have hdiv : 2 * s / 2 = s := by omega
    rw [hdiv]
    push_cast
    rw [← sub_div, mul_div_assoc]

/-- With an odd number of runs the assertion fails. -/
theorem C43_odd_runs_abort (mx : α) (e : EafT α) (es : List (EafT α)) (h : e.nruns % 2 = 1) : eafComputeRectangles mx (e :: es) = none := by
  rw [eafComputeRectangles, if_pos (by omega)]

end main

/-- Non-vacuity: the example of C23 (one run on each side) meets the hypotheses, and these are its rectangles. -/
example : (2 * 1 = 2 ∧ RunsOk eafExCum (2 * 1)) ∧ 0 < eafExCum 0 ∧ EafSortedX eafExPts (eafExCum (2 * 1 - 1)) [3, 0, 2, 1] ∧
    EafSortedY eafExPts (eafExCum (2 * 1 - 1)) [3, 0, 2, 1] ∧ ∀ p < eafExCum (2 * 1 - 1), ∀ d < 2, eafExPts p d < 100 :=
  ⟨⟨rfl, eafEx_runs⟩, by decide, ⟨by decide, by decide⟩, ⟨by decide, by decide⟩, by decide⟩

example : rectSweep (100 : ℤ) 6 [((1, 3), 1), ((2, 2), -1), ((3, 1), 1)] [(1, 4), (2, 3), (3, 2)] 100 [] =
    some [⟨1, 3, 2, 4, 1⟩, ⟨2, 2, 3, 3, -1⟩, ⟨3, 1, 100, 2, 1⟩] := by decide +kernel

end Moo
