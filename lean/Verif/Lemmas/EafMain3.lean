import Verif.Lemmas.EafMain
import Verif.Lemmas.EafMain2
import Verif.Lemmas.EafLabels
import Verif.Props.Eaf2d
import Verif.Props.Eaf3d

/-!
# The program `eaf`: levels, surfaces and output
-/

set_option autoImplicit false
set_option linter.unusedSectionVars false

namespace Moo

/-! ## Levels -/

section levels
variable {K : Type*} [Field K] [LinearOrder K] [IsStrictOrderedRing K] [FloorRing K]

/-- The state before the options. -/
def eafStart (K : Type*) : EafMainSt K := ⟨true, false, false, false, [], [], none, none, none, none, none⟩

theorem percentile2level_ok (tol : K) (h0 : 0 ≤ tol) (h1 : tol < 1) {n : ℕ} (hn : 1 ≤ n) {p : K} (hp : 0 ≤ p ∧ p ≤ 100) :
    ∃ k : ℕ, percentile2level tol p n = some (k : ℤ) ∧ LeastLevel tol n p k := by
  obtain ⟨ks, g1, g2⟩ := levels_least tol h0 h1 n 0 hn [p] (by simpa using hp)
  cases g2 with
  | cons h t =>
    cases t
    unfold levelsFromPercentiles at g1
    dsimp only at g1
    rw [List.mapM_cons] at g1
    cases hc : percentile2level tol p (n : ℤ) with
    | none => rw [hc] at g1; simp at g1
    | some k =>
      rw [hc] at g1
      simp at g1
      subst g1
      exact ⟨_, rfl, h⟩

theorem eafLevels_ok (tol : K) (h0 : 0 ≤ tol) (h1 : tol < 1) {n : ℕ} (hn : 1 ≤ n) (args : List EafArg) (ps : List K) (ls : List ℤ) (hw : ¬ LevelsWrong n args ps ls) :
    ∃ ks : List ℕ, eafLevels tol (eafFinal (eafStart K) args ps ls) n = some (some (ks.map Int.ofNat)) ∧ LevelsOf tol n args ps ls ks ∧ ∀ k ∈ ks, 1 ≤ k ∧ k ≤ n := by
  unfold eafLevels LevelsOf eafFinal eafStart
  simp only [Bool.false_or, List.nil_append, decide_eq_true_eq]
  by_cases hb : EafArg.best ∈ args
  · rw [if_pos hb]
    refine ⟨[1], rfl, by rw [if_pos hb], by simpa using hn⟩
  rw [if_neg hb]
  by_cases hm : EafArg.median ∈ args
  · rw [if_pos hm]
    obtain ⟨k, g1, g2⟩ := percentile2level_ok tol h0 h1 hn (p := 50) (by constructor <;> norm_num)
    rw [g1]
    exact ⟨[k], rfl, by rw [if_neg hb, if_pos hm]; exact ⟨k, g2, rfl⟩, by simpa using ⟨g2.1, g2.2.1⟩⟩
  rw [if_neg hm]
  by_cases hwo : EafArg.worst ∈ args
  · rw [if_pos hwo]
    exact ⟨[n], rfl, by rw [if_neg hb, if_neg hm, if_pos hwo], by simpa using hn⟩
  rw [if_neg hwo]
  by_cases hps : ps = []
  · subst hps
    rw [if_neg (by simp)]
    by_cases hls : ls = []
    · subst hls
      rw [if_neg (by simp)]
      refine ⟨(List.range n).map (· + 1), ?_, ?_, ?_⟩
      · rw [List.map_map]; rfl
      · rw [if_neg hb, if_neg hm, if_neg hwo, if_neg (by simp), if_neg (by simp)]
      · intro k hk
        obtain ⟨j, hj, rfl⟩ := List.mem_map.1 hk
        have := List.mem_range.1 hj
        omega
    · have hr : ∀ l ∈ ls, 1 ≤ l ∧ l ≤ (n : ℤ) := by
        intro l hl
        by_contra hc
        exact hw ⟨hb, hm, hwo, Or.inr ⟨rfl, l, hl, by omega⟩⟩
      rw [if_pos hls, if_neg (by
        rw [List.any_eq_true]
        rintro ⟨l, hl, hc⟩
        have := hr l hl
        simp at hc
        omega)]
      have he : ls = (ls.map Int.toNat).map Int.ofNat := by
        rw [List.map_map]
        conv_lhs => rw [← List.map_id ls]
        apply List.map_congr_left
        intro l hl
        have := hr l hl
        simp
        omega
      have hk : ∀ k ∈ ls.map Int.toNat, 1 ≤ k ∧ k ≤ n := by
        intro k hk
        obtain ⟨l, hl, rfl⟩ := List.mem_map.1 hk
        have := hr l hl
        omega
      refine ⟨ls.map Int.toNat, by rw [← he], ?_, hk⟩
      rw [if_neg hb, if_neg hm, if_neg hwo, if_neg (by simp), if_pos hls]
      exact ⟨hk, he⟩
  · have hr : ∀ p ∈ ps, 0 < p ∧ p ≤ 100 := by
      intro p hp
      by_contra hc
      refine hw ⟨hb, hm, hwo, Or.inl ⟨p, hp, ?_⟩⟩
      by_cases h : 0 < p
      · exact Or.inr (not_le.1 fun h2 => hc ⟨h, h2⟩)
      · exact Or.inl (not_lt.1 h)
    rw [if_pos hps, if_neg (by
      rw [List.any_eq_true]
      rintro ⟨p, hp, hc⟩
      have := hr p hp
      simp only [decide_eq_true_eq] at hc
      rcases hc with hc | hc
      · exact absurd this.1 hc.not_gt
      · exact absurd this.2 hc.not_ge)]
    obtain ⟨ks, g1, g2⟩ := levels_least tol h0 h1 n 0 hn ps (fun p hp => ⟨(hr p hp).1.le, (hr p hp).2⟩)
    unfold levelsFromPercentiles at g1
    dsimp only at g1
    rw [g1]
    refine ⟨ks, rfl, ?_, ?_⟩
    · rw [if_neg hb, if_neg hm, if_neg hwo, if_pos hps]
      exact ⟨hr, g2⟩
    · clear g1 hr hw hps
      induction g2 with
      | nil => simp
      | cons h _ ih =>
        intro k hk
        rcases List.mem_cons.1 hk with rfl | hk
        · exact ⟨h.1, h.2.1⟩
        · exact ih k hk

theorem eafLevels_wrong (tol : K) {n : ℕ} (args : List EafArg) (ps : List K) (ls : List ℤ) (hw : LevelsWrong n args ps ls) :
    eafLevels tol (eafFinal (eafStart K) args ps ls) n = some none := by
  obtain ⟨hb, hm, hwo, h⟩ := hw
  unfold eafLevels eafFinal eafStart
  simp only [Bool.false_or, List.nil_append, decide_eq_true_eq]
  rw [if_neg hb, if_neg hm, if_neg hwo]
  rcases h with ⟨p, hp, hc⟩ | ⟨rfl, l, hl, hc⟩
  · rw [if_pos (List.ne_nil_of_mem hp), if_pos]
    rw [List.any_eq_true]
    exact ⟨p, hp, by simpa using hc⟩
  · rw [if_neg (by simp), if_pos (List.ne_nil_of_mem hl), if_pos]
    rw [List.any_eq_true]
    exact ⟨l, hl, by simpa using hc⟩

end levels

/-! ## Output -/

section output
variable {K : Type*}

/-- The pieces that `eaf_print_line` writes, with their streams. -/
def eafLineRaw (co : OutStream) (ind dif : Option OutStream) (p : List K × List Bool) : List (OutStream × EafTok K) :=
  [(co, .point p.1), (co, if some co = ind ∨ some co = dif then .tab else .newline)] ++
    ((ind.elim [] fun i => [(i, .indices p.2), (i, if ind = dif then .tab else .newline)]) ++
      dif.elim [] fun d => [(d, .counts ((p.2.take (p.2.length / 2)).count true) ((p.2.drop (p.2.length / 2)).count true)), (d, .newline)])

theorem bits_split (B : ℕ → Bool) (n : ℕ) : (List.range n).map B = (List.range (n / 2)).map B ++ (List.range (n - n / 2)).map fun k => B (n / 2 + k) := by
  conv_lhs => rw [show n = n / 2 + (n - n / 2) by omega, List.range_add, List.map_append, List.map_map]
  rfl

theorem bits_take (B : ℕ → Bool) (n : ℕ) : ((List.range n).map B).take (n / 2) = (List.range (n / 2)).map B := by
  rw [bits_split, List.take_left' (by simp)]

theorem bits_drop (B : ℕ → Bool) (n : ℕ) : ((List.range n).map B).drop (n / 2) = (List.range (n - n / 2)).map fun k => B (n / 2 + k) := by
  rw [bits_split, List.drop_left' (by simp)]

theorem bitCount_bits {m : List (BitVec 64)} {b n : ℕ} {B : ℕ → Bool} (h : ∀ r < n, bitArrayGet m b r = some (B r)) (lo : ℕ) : ∀ cnt, lo + cnt ≤ n →
    bitCount m b lo cnt = some (((List.range cnt).map fun k => B (lo + k)).count true) := by
  intro cnt
  induction cnt with
  | zero => intro _; rfl
  | succ c ih =>
    intro hc
    rw [bitCount, ih (by omega), h (lo + c) (by omega), List.range_succ, List.map_append, List.count_append]
    cases hb : B (lo + c) <;> simp [hb]

theorem getBits_ok {m : List (BitVec 64)} {b n : ℕ} {B : ℕ → Bool} (h : ∀ r < n, bitArrayGet m b r = some (B r)) (lo cnt : ℕ) (hc : lo + cnt ≤ n) :
    getBits m b lo cnt = some ((List.range cnt).map fun k => B (lo + k)) := by
  unfold getBits
  apply mapM_some
  intro k hk
  exact h _ (by have := List.mem_range.1 hk; omega)

theorem eafPrintLine_ok (co : OutStream) (ind dif : Option OutStream) (x : List K) {m : List (BitVec 64)} {b n : ℕ} {B : ℕ → Bool} (h : ∀ r < n, bitArrayGet m b r = some (B r))
    (hn : 1 ≤ n) (hi : 2 ≤ n ∨ ind = none) : eafPrintLine co ind dif x m b n = some (eafLineRaw co ind dif (x, (List.range n).map B)) := by
  have hc : ((x, (List.range n).map B).2.take ((x, (List.range n).map B).2.length / 2)).count true = ((List.range (n / 2)).map B).count true := by
    dsimp only
    rw [List.length_map, List.length_range, bits_take]
  have hd : ((x, (List.range n).map B).2.drop ((x, (List.range n).map B).2.length / 2)).count true = ((List.range (n - n / 2)).map fun k => B (n / 2 + k)).count true := by
    dsimp only
    rw [List.length_map, List.length_range, bits_drop]
  unfold eafPrintLine eafLineRaw
  rw [hc, hd]
  cases ind with
  | some i =>
    have h2 : 2 ≤ n := by simpa using hi
    rw [h 0 (by omega), getBits_ok h _ _ (by omega), getBits_ok h _ _ (by omega)]
    dsimp only
    have hl : B 0 :: (List.range (n / 2 - 1)).map (fun k => B (1 + k)) = (List.range (n / 2)).map B := by
      conv_rhs => rw [show n / 2 = 1 + (n / 2 - 1) by omega, List.range_add, List.map_append, List.map_map]
      rfl
    rw [hl, ← bits_split]
    cases dif <;> simp
  | none =>
    cases dif with
    | none => simp
    | some d =>
      dsimp only
      have hlt : n / 2 < n := by omega
      rw [attainedLeftRight, if_pos hlt, bitCount_bits h 0 (n / 2) (by omega), bitCount_bits h (n / 2) (n - n / 2) (by omega)]
      simp

theorem eafLineRaw_filter [DecidableEq K] (co : OutStream) (ind dif : Option OutStream) (p : List K × List Bool) (s : OutStream) :
    ((eafLineRaw co ind dif p).filter fun t => t.1 = s).map (·.2) = eafLine s co ind dif p := by
  unfold eafLineRaw eafLine
  by_cases hco : co = s
  · subst hco
    cases ind with
    | none =>
      cases dif with
      | none => simp
      | some d =>
        by_cases hd : d = co
        · subst hd; simp
        · have := Ne.symm hd
          simp [hd, this]
    | some i =>
      by_cases hi : i = co
      · subst hi
        cases dif with
        | none => simp
        | some d =>
          by_cases hd : d = i
          · subst hd; simp
          · have := Ne.symm hd
            simp [hd, this]
      · have hi' := Ne.symm hi
        cases dif with
        | none => simp [hi, hi']
        | some d =>
          by_cases hd : d = co
          · subst hd; simp [hi, hi']
          · have hd' := Ne.symm hd
            simp [hd, hd', hi, hi']
  · have hco' := Ne.symm hco
    cases ind with
    | none =>
      cases dif with
      | none => simp [hco]
      | some d =>
        by_cases hd : d = s
        · subst hd; simp [hco]
        · simp [hco, hd]
    | some i =>
      by_cases hi : i = s
      · subst hi
        cases dif with
        | none => simp [hco]
        | some d =>
          by_cases hd : d = i
          · subst hd; simp [hco]
          · have := Ne.symm hd
            simp [hd, this, hco]
      · have hi' := Ne.symm hi
        cases dif with
        | none => simp [hi, hco]
        | some d =>
          by_cases hd : d = s
          · subst hd; simp [hi, hco]
          · simp [hd, hi, hco]

/-- The row of a surface as a line. -/
def rowLine (nobj nruns : ℕ) (r : (ℕ → K) × (ℕ → ℤ)) : List K × List Bool := ((List.range nobj).map r.1, (List.range nruns).map fun k => decide (r.2 k ≠ 0))

theorem eafPrintAttsurf_ok {nobj : ℕ} {e : EafT K} {rows : List ((ℕ → K) × (ℕ → ℤ))} (h : EafHolds nobj e rows) (co : OutStream) (ind dif : Option OutStream) (hn : 1 ≤ e.nruns)
    (hi : 2 ≤ e.nruns ∨ ind = none) : eafPrintAttsurf e nobj co ind dif = some ((rows.map (rowLine nobj e.nruns)).flatMap (eafLineRaw co ind dif)) := by
  unfold eafPrintAttsurf
  rw [mapM_some _ (fun i => eafLineRaw co ind dif (((rows.map (rowLine nobj e.nruns))[i]?).getD ([], []))) (List.range e.size)]
  · rw [Option.map_some, List.flatMap_def]
    congr 2
    apply List.ext_getElem
    · simp [h.size]
    · intro i h1 h2
      have : i < rows.length := by simpa using h2
      simp [this]
  · intro i hir
    have hir : i < rows.length := by rw [← h.size]; exact List.mem_range.1 hir
    rw [mapM_some _ (rows[i].1) (List.range nobj)]
    · dsimp only
      rw [eafPrintLine_ok co ind dif _ (h.bits i hir) hn hi]
      simp [hir, rowLine]
    · intro j hj
      rw [Nat.mul_comm i]
      exact h.data i hir j (List.mem_range.1 hj)

theorem eafPrint_ok {nobj nruns : ℕ} (hn : 1 ≤ nruns) (co : OutStream) (ind dif : Option OutStream) (hi : 2 ≤ nruns ∨ ind = none) {es : List (EafT K)} {surfaces : List (List (List K × List Bool))}
    (h : List.Forall₂ (fun e pts => e.nruns = nruns ∧ ∃ rows, EafHolds nobj e rows ∧ pts = rows.map (rowLine nobj nruns)) es surfaces) :
    eafPrint nobj co ind dif es = some (surfaces.flatMap fun pts => pts.flatMap (eafLineRaw co ind dif) ++ [(co, .newline)]) := by
  induction h with
  | nil => rfl
  | cons h _ ih =>
    obtain ⟨h1, rows, h2, rfl⟩ := h
    rw [eafPrint, ih, eafPrintAttsurf_ok h2 co ind dif (by rw [h1]; exact hn) (by rw [h1]; exact hi), h1]
    simp

theorem eafText_filter [DecidableEq K] (co : OutStream) (ind dif : Option OutStream) (surfaces : List (List (List K × List Bool))) (s : OutStream) :
    ((surfaces.flatMap fun pts => pts.flatMap (eafLineRaw co ind dif) ++ [(co, .newline)]).filter fun t => t.1 = s).map (·.2) = eafText s co ind dif surfaces := by
  have h1 : ∀ pts : List (List K × List Bool), ((pts.flatMap (eafLineRaw co ind dif)).filter fun t => t.1 = s).map (·.2) = pts.flatMap (eafLine s co ind dif) := by
    intro pts
    induction pts with
    | nil => rfl
    | cons p pts ih => rw [List.flatMap_cons, List.filter_append, List.map_append, ih, eafLineRaw_filter, List.flatMap_cons]
  induction surfaces with
  | nil => rfl
  | cons pts surfaces ih =>
    unfold eafText at ih ⊢
    rw [List.flatMap_cons, List.filter_append, List.map_append, ih, List.flatMap_cons, List.filter_append, List.map_append, h1]
    by_cases hc : co = s <;> simp [hc]

end output

/-! ## Surfaces -/

section surfaces
variable {K : Type*} [Field K] [LinearOrder K] [IsStrictOrderedRing K] [FloorRing K]

theorem isSurface_of_rows {n : ℕ} {runs : List (List (List K))} (h : ∀ t ∈ runs, ∀ r ∈ t, r.length = n) {k : ℕ} {rows : List ((ℕ → K) × (ℕ → ℤ))}
    (hnd : (rows.map fun r => (List.range n).map r.1).Nodup)
    (hmem : ∀ z : ℕ → K, (List.range n).map z ∈ (rows.map fun r => (List.range n).map r.1) ↔
      MinimalAttained (blockTable (fun j => runs.flatten.flatten.getD j 0) n 0) (fun r => (cumFrom 0 (runs.map List.length)).getD r 0) runs.length n k z)
    (hbits : ∀ r ∈ rows, ∀ i < runs.length, r.2 i ≠ 0 ↔
      Attains (blockTable (fun j => runs.flatten.flatten.getD j 0) n 0) (fun r => (cumFrom 0 (runs.map List.length)).getD r 0) n i r.1) :
    IsSurface n runs k (rows.map (rowLine n runs.length)) := by
  have he : (rows.map (rowLine n runs.length)).map Prod.fst = rows.map fun r => (List.range n).map r.1 := by rw [List.map_map]; rfl
  refine ⟨by rw [he]; exact hnd, ?_, ?_⟩
  · intro z
    rw [he]
    constructor
    · intro hz
      obtain ⟨r, hr, rfl⟩ := List.mem_map.1 hz
      exact (minimalAttained_runs h k r.1).1 ((hmem r.1).1 (List.mem_map.2 ⟨r, hr, rfl⟩))
    · intro hz
      have hl := range_map_obj hz.1
      rw [← hl] at hz ⊢
      exact (hmem _).2 ((minimalAttained_runs h k _).2 hz)
  · intro p hp
    obtain ⟨r, hr, rfl⟩ := List.mem_map.1 hp
    unfold rowLine
    dsimp only
    apply List.ext_getElem
    · simp
    · intro i h1 h2
      have hi : i < runs.length := by simpa using h1
      simp only [List.getElem_map, List.getElem_range]
      exact decide_eq_decide.2 ((hbits r hr i hi).trans (attains_iff_run h hi r.1))

/-- The environment sorts as `qsort` does and does not lose memory. -/
structure EafEnvOk (env : EafMainEnv K) : Prop where
  scan : ScanOk env.scan
  scanInt : ScanOk env.scanInt
  tol : 0 ≤ env.tol ∧ env.tol < 1
  grow : GrowOk env.mem
  sortX : ∀ pts n, EafSortedX pts n (env.sortX pts n)
  sortY : ∀ pts n, EafSortedY pts n (env.sortY pts n)
  sortZ : ∀ pts n, EafSortedZ pts n (env.sortZ pts n)

theorem attsurf_two {env : EafMainEnv K} (he : EafEnvOk env) {runs : List (List (List K))} (hr0 : runs ≠ []) (hne : ∀ t ∈ runs, t ≠ []) (h : ∀ t ∈ runs, ∀ r ∈ t, r.length = 2)
    (hsize : runs.flatten.length ≤ 1073741823) {ks : List ℕ} (hk : ∀ k ∈ ks, 1 ≤ k ∧ k ≤ runs.length) (fuelP : ℕ) :
    ∃ es surfaces, attsurf env fuelP (blockTable (fun j => runs.flatten.flatten.getD j 0) 2 0) 2 (fun r => (cumFrom 0 (runs.map List.length)).getD r 0) runs.length (ks.map Int.ofNat) = some (some es) ∧
      List.Forall₂ (fun e pts => e.nruns = runs.length ∧ ∃ rows, EafHolds 2 e rows ∧ pts = rows.map (rowLine 2 runs.length)) es surfaces ∧
      List.Forall₂ (IsSurface 2 runs) ks surfaces := by
  obtain ⟨hr, h0, hlast⟩ := runsOk_of_runs hr0 hne
  obtain ⟨res, h1, h2⟩ := eaf2d_levels hr (he.sortX _ _) (he.sortY (blockTable (fun j => runs.flatten.flatten.getD j 0) 2 0) _) (Nat.lt_succ_self _) ks (fun k hkk => (hk k hkk).1)
  unfold attsurf
  rw [if_pos rfl, h1]
  dsimp only
  clear h1
  suffices hs : ∃ es surfaces, res.mapM (fun out => eafSurface2d env.mem runs.length ((cumFrom 0 (runs.map List.length)).getD (runs.length - 1) 0) out) = some es ∧
      List.Forall₂ (fun e pts => e.nruns = runs.length ∧ ∃ rows, EafHolds 2 e rows ∧ pts = rows.map (rowLine 2 runs.length)) es surfaces ∧ List.Forall₂ (IsSurface 2 runs) ks surfaces by
    obtain ⟨es, surfaces, g1, g2⟩ := hs
    exact ⟨es, surfaces, by rw [g1]; rfl, g2⟩
  induction h2 with
  | nil => exact ⟨[], [], rfl, .nil, .nil⟩
  | @cons k out ks outs hL _ ih =>
    obtain ⟨es, surfaces, g1, g2, g3⟩ := ih (fun k hkk => hk k (by simp [hkk]))
    have hkk := hk k (by simp)
    obtain ⟨e, e1, e2, e3⟩ := eafSurface_of hr h0 hkk.1 hkk.2 (by rw [hlast]; exact hsize) env.mem he.grow hL
    refine ⟨e :: es, _ :: surfaces, by rw [List.mapM_cons, e1, g1]; rfl, .cons ⟨e2, _, e3, rfl⟩ g2, .cons ?_ g3⟩
    have hrow : ∀ o : K × K × (ℕ → ℤ), (List.range 2).map (fun d => if d = 0 then o.1 else o.2.1) = [o.1, o.2.1] := by intro o; simp [List.range_succ]
    have hmap : (out.map (fun o => ((fun d => if d = 0 then o.1 else o.2.1 : ℕ → K), o.2.2))).map (fun r => (List.range 2).map r.1) = (eafPoints out).map fun p => [p.1, p.2] := by
      unfold eafPoints
      rw [List.map_map, List.map_map]
      apply List.map_congr_left
      intro o _
      exact hrow o
    apply isSurface_of_rows h
    · rw [hmap]
      refine List.Nodup.map ?_ hL.points.1
      rintro ⟨a, b⟩ ⟨c, d⟩ hh
      simpa using hh
    · intro z
      rw [hmap]
      have hz : (List.range 2).map z = [z 0, z 1] := by simp [List.range_succ]
      have hv : MinimalAttained (blockTable (fun j => runs.flatten.flatten.getD j 0) 2 0) (fun r => (cumFrom 0 (runs.map List.length)).getD r 0) runs.length 2 k z ↔
          MinimalAttained (blockTable (fun j => runs.flatten.flatten.getD j 0) 2 0) (fun r => (cumFrom 0 (runs.map List.length)).getD r 0) runs.length 2 k (vec2 (z 0) (z 1)) := by
        rw [minimalAttained_runs h, minimalAttained_runs h, hz]
        simp [List.range_succ, vec2]
      rw [hz, hv, ← hL.points.2, List.mem_map]
      constructor
      · rintro ⟨⟨a, b⟩, hp, hh⟩
        simp at hh
        rw [← hh.1, ← hh.2]; exact hp
      · intro hp
        exact ⟨_, hp, rfl⟩
    · intro r hrr i hi
      obtain ⟨o, ho, rfl⟩ := List.mem_map.1 hrr
      rw [attains_iff_run h hi]
      rw [hL.bits o ho i hi, attains_iff_run h hi]
      simp [List.range_succ, vec2]

theorem attsurf_three {env : EafMainEnv K} (he : EafEnvOk env) {runs : List (List (List K))} (hr0 : runs ≠ []) (hne : ∀ t ∈ runs, t ≠ []) (h : ∀ t ∈ runs, ∀ r ∈ t, r.length = 3)
    (hsize : runs.flatten.length ≤ 32767) (hb : ∀ t ∈ runs, ∀ r ∈ t, ∀ d < 2, env.mn < obj r d ∧ obj r d < env.mx) :
    ∃ N, ∀ fuelP, N ≤ fuelP → ∀ {ks : List ℕ}, (∀ k ∈ ks, 1 ≤ k ∧ k ≤ runs.length) →
    ∃ es surfaces, attsurf env fuelP (blockTable (fun j => runs.flatten.flatten.getD j 0) 3 0) 3 (fun r => (cumFrom 0 (runs.map List.length)).getD r 0) runs.length (ks.map Int.ofNat) = some (some es) ∧
      List.Forall₂ (fun e pts => e.nruns = runs.length ∧ ∃ rows, EafHolds 3 e rows ∧ pts = rows.map (rowLine 3 runs.length)) es surfaces ∧
      List.Forall₂ (IsSurface 3 runs) ks surfaces := by
  obtain ⟨hr, h0, hlast⟩ := runsOk_of_runs hr0 hne
  obtain ⟨N, hN⟩ := eaf3d_levels (mn := env.mn) (mx := env.mx) (junk := env.junk) (fuel := (cumFrom 0 (runs.map List.length)).getD (runs.length - 1) 0 + 3) hr
    (he.sortZ (blockTable (fun j => runs.flatten.flatten.getD j 0) 3 0) _) (by
      intro i hi d hd
      rw [hlast] at hi
      have hi' : runs.flatten[i]? = some runs.flatten[i] := List.getElem?_eq_getElem hi
      rw [runs_table h hi' (by omega)]
      obtain ⟨t, ht, hrt⟩ := List.mem_flatten.1 (List.getElem_mem hi)
      exact hb t ht _ hrt d hd) le_rfl
  refine ⟨N, fun fuelP hf ks hk => ?_⟩
  obtain ⟨res, h1, h2⟩ := hN fuelP hf ks hk
  unfold attsurf
  rw [if_neg (by omega), if_pos rfl, h1]
  dsimp only
  clear h1
  suffices hs : ∃ es surfaces, res.mapM (fun out => eaf3dSurface env.mem runs.length ((cumFrom 0 (runs.map List.length)).getD (runs.length - 1) 0) out) = some es ∧
      List.Forall₂ (fun e pts => e.nruns = runs.length ∧ ∃ rows, EafHolds 3 e rows ∧ pts = rows.map (rowLine 3 runs.length)) es surfaces ∧ List.Forall₂ (IsSurface 3 runs) ks surfaces by
    obtain ⟨es, surfaces, g1, g2⟩ := hs
    exact ⟨es, surfaces, by rw [g1]; rfl, g2⟩
  induction h2 with
  | nil => exact ⟨[], [], rfl, .nil, .nil⟩
  | @cons k out ks outs hL _ ih =>
    obtain ⟨es, surfaces, g1, g2, g3⟩ := ih (fun k hkk => hk k (by simp [hkk]))
    have hkk := hk k (by simp)
    have hlen := hL.length_le hr hkk.1
    rw [hlast] at hlen
    have hlen := hlen.trans (Nat.mul_le_mul hsize hsize)
    obtain ⟨e, e1, e2, e3⟩ := eaf3dSurface_of (nruns := runs.length) (cumsize := fun r => (cumFrom 0 (runs.map List.length)).getD r 0) (hlen.trans (by norm_num)) env.mem he.grow
    refine ⟨e :: es, _ :: surfaces, by rw [List.mapM_cons, e1, g1]; rfl, .cons ⟨e2, _, e3, rfl⟩ g2, .cons ?_ g3⟩
    have hmap : (out.map (fun o => ((fun d => if d = 0 then o.1.x else if d = 1 then o.1.y else o.1.z : ℕ → K), o.2))).map (fun r => (List.range 3).map r.1) =
        (eaf3dPoints out).map fun p => [p.1, p.2.1, p.2.2] := by
      unfold eaf3dPoints
      rw [List.map_map, List.map_map]
      apply List.map_congr_left
      intro o _
      simp [List.range_succ]
    apply isSurface_of_rows h
    · rw [hmap]
      refine List.Nodup.map ?_ hL.nodup
      rintro ⟨a, b, c⟩ ⟨a', b', c'⟩ hh
      simpa using hh
    · intro z
      rw [hmap]
      have hz : (List.range 3).map z = [z 0, z 1, z 2] := by simp [List.range_succ]
      have hv : MinimalAttained (blockTable (fun j => runs.flatten.flatten.getD j 0) 3 0) (fun r => (cumFrom 0 (runs.map List.length)).getD r 0) runs.length 3 k z ↔
          MinimalAttained (blockTable (fun j => runs.flatten.flatten.getD j 0) 3 0) (fun r => (cumFrom 0 (runs.map List.length)).getD r 0) runs.length 3 k (vec3 (z 0) (z 1) (z 2)) := by
        rw [minimalAttained_runs h, minimalAttained_runs h, hz]
        simp [List.range_succ, vec3]
      rw [hz, hv, ← hL.points, List.mem_map]
      constructor
      · rintro ⟨⟨a, b, c⟩, hp, hh⟩
        simp at hh
        rw [← hh.1, ← hh.2.1, ← hh.2.2]; exact hp
      · intro hp
        exact ⟨_, hp, rfl⟩
    · intro r hrr i hi
      obtain ⟨o, ho, rfl⟩ := List.mem_map.1 hrr
      rw [attains_iff_run h hi]
      rw [hL.bits o ho i hi, attains_iff_run h hi]
      simp [List.range_succ, vec3]

end surfaces

end Moo
