import Verif.Spec.EafPolyMain
import Verif.Props.EafMain
import Verif.Props.EafPolygon

/-!
# The program `eaf --polygons` (C87)

The claim: `eaf --polygons` writes, as polygons, the regions between the attainment surfaces of the levels asked for, each with the difference of the numbers of attaining runs in the two halves as colour.
It is false for an odd number of runs, and for levels that are not successive.
-/

set_option autoImplicit false
set_option linter.unusedSectionVars false

namespace Moo

section
variable {K : Type*} [Field K] [LinearOrder K] [IsStrictOrderedRing K] [FloorRing K] {env : EafMainEnv K}

theorem levelsOf_unique {tol : K} {n : ℕ} {args : List EafArg} {ps : List K} {ls : List ℤ} {ks ks' : List ℕ} (h : LevelsOf tol n args ps ls ks) (h' : LevelsOf tol n args ps ls ks') : ks = ks' := by
  unfold LevelsOf at h h'
  by_cases h1 : EafArg.best ∈ args
  · rw [if_pos h1] at h h'
    rw [h, h']
  rw [if_neg h1] at h h'
  by_cases h2 : EafArg.median ∈ args
  · rw [if_pos h2] at h h'
    obtain ⟨k, g1, rfl⟩ := h
    obtain ⟨k', g2, rfl⟩ := h'
    rw [leastLevel_unique g1 g2]
  rw [if_neg h2] at h h'
  by_cases h3 : EafArg.worst ∈ args
  · rw [if_pos h3] at h h'
    rw [h, h']
  rw [if_neg h3] at h h'
  by_cases h4 : ps ≠ []
  · rw [if_pos h4] at h h'
    obtain ⟨-, h⟩ := h
    obtain ⟨-, h'⟩ := h'
    clear h4
    induction h generalizing ks' with
    | nil => cases h'; rfl
    | cons g _ ih =>
      cases h' with
      | cons g' h' => rw [leastLevel_unique g g', ih h']
  rw [if_neg h4] at h h'
  by_cases h5 : ls ≠ []
  · rw [if_pos h5] at h h'
    exact List.map_injective_iff.2 (fun a b hab => Int.ofNat.inj hab) (h.2.symm.trans h'.2)
  rw [if_neg h5] at h h'
  rw [h, h']

theorem eafStreams_points (args : List EafArg) (ps : List K) (ls : List ℤ) : (eafStreams (eafFinal (eafStart K) args ps ls)).1 = pointsTo args := by
  show (match (args.filterMap EafArg.output?).foldl coordStep none with | some f => OutStream.file f | none => .stdout) = pointsTo args
  rw [coordStep_last]
  unfold pointsTo
  cases (args.filterMap EafArg.output?).getLast? with
  | none => rfl
  | some f => by_cases hf : f = ['-'] <;> simp [streamOf, hf]

theorem eafMainPolygons_eq (he : EafEnvOk env) {args : List EafArg} {ps : List K} {ls : List ℤ} (hp : ArgNumbers env.scan (args.filterMap EafArg.percentile?) ps)
    (hl : ArgNumbers env.scanInt (args.filterMap EafArg.level?) ls) (hps : ps.length < 50) (hls : ls.length < 50) (inf ninf : K) (fuelP : ℕ) (files : List (List Char)) :
    eafMainPolygons env inf ninf fuelP args files =
      match eafRead env.scan 0 [] [] files with
      | none => .undefined
      | some none => .exit 1 []
      | some (some (nobj, cum, data)) =>
        match eafLevels env.tol (eafFinal (eafStart K) args ps ls) cum.length with
        | none => .undefined
        | some none => .exit 1 []
        | some (some level) =>
          if (eafFinal (eafStart K) args ps ls).verbose ∧ cum = [] then .undefined
          else
            match attsurf env fuelP (blockTable (fun j => data.getD j 0) nobj 0) nobj (fun r => cum.getD r 0) cum.length level with
            | none => .undefined
            | some none => .exit 1 []
            | some (some es) =>
              match eafPrintPolygon inf ninf (eafStreams (eafFinal (eafStart K) args ps ls)).1 es with
              | none => .undefined
              | some written => .exit 0 written := by
  unfold eafMainPolygons
  rw [eafOptions_ok env he.scan he.scanInt args _ ps ls hp hl (by simpa [maxLevels] using hps) (by simpa [maxLevels] using hls)]
  rfl

/-- The two halves of the runs. -/
theorem attainedBetween_runs {runs : List (List (List K))} (h : ∀ t ∈ runs, ∀ r ∈ t, r.length = 2) {lo hi : ℕ} (hlo : lo ≤ hi) (hhi : hi ≤ runs.length) (x y : K) :
    attainedBetween (blockTable (fun j => runs.flatten.flatten.getD j 0) 2 0) (fun r => (cumFrom 0 (runs.map List.length)).getD r 0) lo hi x y =
      runsAttaining 2 ((runs.take hi).drop lo) [x, y] := by
  classical
  unfold attainedBetween runsAttaining
  have hlen : ((runs.take hi).drop lo).length = hi - lo := by rw [List.length_drop, List.length_take]; omega
  rw [← card_filter_range ((runs.take hi).drop lo) (fun run => RunAttains 2 run [x, y])
    (fun r => Attains (blockTable (fun j => runs.flatten.flatten.getD j 0) 2 0) (fun r => (cumFrom 0 (runs.map List.length)).getD r 0) 2 (lo + r) (vec2 x y)) ?_]
  · rw [hlen]
    refine (Finset.card_bij (fun r _ => lo + r) ?_ ?_ ?_).symm
    · intro r hr
      rw [Finset.mem_filter, Finset.mem_range] at hr
      rw [Finset.mem_filter, Finset.mem_Ico]
      exact ⟨by omega, hr.2⟩
    · intro a _ b _ hab
      omega
    · intro r hr
      rw [Finset.mem_filter, Finset.mem_Ico] at hr
      refine ⟨r - lo, ?_, by omega⟩
      rw [Finset.mem_filter, Finset.mem_range, show lo + (r - lo) = r by omega]
      exact ⟨by omega, hr.2⟩
  · intro r hr
    rw [hlen] at hr
    rw [attains_iff_run h (by omega)]
    rw [List.getElem_drop, List.getElem_take]
    simp [List.range_succ, vec2]

theorem attsurf_stored {env : EafMainEnv K} (he : EafEnvOk env) {runs : List (List (List K))} (hr0 : runs ≠ []) (hne : ∀ t ∈ runs, t ≠ []) (hsize : runs.flatten.length ≤ 1073741823) {ks : List ℕ}
    (hk : ∀ k ∈ ks, 1 ≤ k ∧ k ≤ runs.length) (fuelP : ℕ) (pts : ℕ → ℕ → K) :
    ∃ outs es, attsurf env fuelP pts 2 (fun r => (cumFrom 0 (runs.map List.length)).getD r 0) runs.length (ks.map Int.ofNat) = some (some es) ∧
      List.Forall₂ (EafLevelOk pts (fun r => (cumFrom 0 (runs.map List.length)).getD r 0) runs.length) ks outs ∧ List.Forall₂ (EafStored runs.length) outs es := by
  obtain ⟨hr, h0, hlast⟩ := runsOk_of_runs hr0 hne
  obtain ⟨res, h1, h2⟩ := eaf2d_levels hr (he.sortX _ _) (he.sortY pts _) (Nat.lt_succ_self _) ks (fun k hkk => (hk k hkk).1)
  unfold attsurf
  rw [if_pos rfl, h1]
  dsimp only
  clear h1
  suffices hs : ∃ es, res.mapM (fun out => eafSurface2d env.mem runs.length ((cumFrom 0 (runs.map List.length)).getD (runs.length - 1) 0) out) = some es ∧
      List.Forall₂ (EafStored runs.length) res es by
    obtain ⟨es, g1, g2⟩ := hs
    exact ⟨res, es, by rw [g1]; rfl, h2, g2⟩
  induction h2 with
  | nil => exact ⟨[], rfl, .nil⟩
  | @cons k out ks outs hL _ ih =>
    obtain ⟨es, g1, g2⟩ := ih (fun k hkk => hk k (by simp [hkk]))
    have hkk := hk k (by simp)
    obtain ⟨e, e1, e2, e3⟩ := eafSurface_of hr h0 hkk.1 hkk.2 (by rw [hlast]; exact hsize) env.mem he.grow hL
    exact ⟨e :: es, by rw [List.mapM_cons, e1, g1]; rfl, .cons ⟨e2, e3⟩ g2⟩

/-- What `main` does with readable files. -/
theorem eafMainPolygons_run (he : EafEnvOk env) {args : List EafArg} {ps : List K} {ls : List ℤ} (hp : ArgNumbers env.scan (args.filterMap EafArg.percentile?) ps)
    (hl : ArgNumbers env.scanInt (args.filterMap EafArg.level?) ls) (hps : ps.length < 50) (hls : ls.length < 50) {files : List (List Char)} {runs : List (List (List K))}
    (hf : FilesRuns env.scan 2 files runs) (hr : runs ≠ []) (hs : runs.flatten.length ≤ 1073741823) {ks : List ℕ} (hw : ¬ LevelsWrong runs.length args ps ls)
    (hk : LevelsOf env.tol runs.length args ps ls ks) (inf ninf : K) (fuelP : ℕ) :
    ∃ outs es, List.Forall₂ (EafLevelOk (blockTable (fun j => runs.flatten.flatten.getD j 0) 2 0) (fun r => (cumFrom 0 (runs.map List.length)).getD r 0) runs.length) ks outs ∧
      List.Forall₂ (EafStored runs.length) outs es ∧
      eafMainPolygons env inf ninf fuelP args files =
        match eafPrintPolygon inf ninf (pointsTo args) es with
        | none => .undefined
        | some written => .exit 0 written := by
  obtain ⟨hne, hlen, -⟩ := hf.shape
  have hpos : 1 ≤ runs.length := List.length_pos_iff.2 hr
  obtain ⟨ks', hk1, hk2, hk3⟩ := eafLevels_ok env.tol he.tol.1 he.tol.2 hpos args ps ls hw
  obtain rfl := levelsOf_unique hk hk2
  obtain ⟨outs, es, h1, h2, h3⟩ := attsurf_stored he hr hne hs hk3 fuelP (blockTable (fun j => runs.flatten.flatten.getD j 0) 2 0)
  refine ⟨outs, es, h2, h3, ?_⟩
  rw [eafMainPolygons_eq he hp hl hps hls, eafRead_ok he.scan hf, if_neg hr]
  dsimp only
  have hcl : (cumFrom 0 (runs.map List.length)).length = runs.length := by rw [cumFrom_length, List.length_map]
  rw [hcl, hk1]
  dsimp only
  rw [if_neg (by
    rintro ⟨-, hc⟩
    rw [hc] at hcl
    simp at hcl
    omega), h1]
  dsimp only
  rw [eafStreams_points]

/-- **C87**, with these hypotheses: two objectives and an even number of runs; the levels asked for are `k, k + 1, ..., k + n` (without options for levels these are `1, ..., runs.length`); the coordinates are
finite.  Then the program writes, and only to the stream for the points, the lines for polygons between the surfaces of these levels.  Missing are the other cases, where the claim is false
(`C87_false_odd_runs`, `C87_false_level_order`, `C87_false_level_gap`), and three objectives. -/
theorem C87_polygons_partial (he : EafEnvOk env) {args : List EafArg} {ps : List K} {ls : List ℤ} (hp : ArgNumbers env.scan (args.filterMap EafArg.percentile?) ps)
    (hl : ArgNumbers env.scanInt (args.filterMap EafArg.level?) ls) (hps : ps.length < 50) (hls : ls.length < 50) {files : List (List Char)} {runs : List (List (List K))}
    (hf : FilesRuns env.scan 2 files runs) (hr : runs ≠ []) (heven : Even runs.length) (hs : runs.flatten.length ≤ 1073741823) (hw : ¬ LevelsWrong runs.length args ps ls) {k n : ℕ}
    (hk : LevelsOf env.tol runs.length args ps ls (List.range' k (n + 1))) {inf ninf : K} (hb : ∀ t ∈ runs, ∀ r ∈ t, ∀ d < 2, ninf < obj r d ∧ obj r d < inf) (fuelP : ℕ) :
    ∃ polys, PolygonsBetween inf ninf runs k n polys ∧
      eafMainPolygons env inf ninf fuelP args files = .exit 0 ((polygonLines ninf polys).map fun t => (pointsTo args, t)) := by
  obtain ⟨hne, hlen, -⟩ := hf.shape
  have hpos : 1 ≤ runs.length := List.length_pos_iff.2 hr
  obtain ⟨ks', -, hk2, hk3⟩ := eafLevels_ok env.tol he.tol.1 he.tol.2 hpos args ps ls hw
  obtain rfl := levelsOf_unique hk hk2
  obtain ⟨outs, es, h1, h2, h3⟩ := eafMainPolygons_run he hp hl hps hls hf hr hs hw hk inf ninf fuelP
  obtain ⟨s, hs2⟩ := heven
  have h2s : runs.length = 2 * s := by omega
  obtain ⟨hro, h0, hlast⟩ := runsOk_of_runs hr hne
  have hk1 : 1 ≤ k := (hk3 k (by simp [List.mem_range'_1])).1
  have htab : ∀ p < (cumFrom 0 (runs.map List.length)).getD (2 * s - 1) 0, ∀ d < 2, ninf < blockTable (fun j => runs.flatten.flatten.getD j 0) 2 0 p d ∧
      blockTable (fun j => runs.flatten.flatten.getD j 0) 2 0 p d < inf := by
    intro p hpp d hd
    rw [← h2s, hlast] at hpp
    rw [runs_table hlen (List.getElem?_eq_getElem hpp) hd]
    obtain ⟨t, ht, hpt⟩ := List.mem_flatten.1 (List.getElem_mem hpp)
    exact hb t ht _ hpt d hd
  have hmm : ninf < inf := by
    obtain ⟨t, ts, rfl⟩ := List.exists_cons_of_ne_nil hr
    obtain ⟨r, rs, rfl⟩ := List.exists_cons_of_ne_nil (hne t (by simp))
    have := hb (r :: rs) (by simp) r (by simp) 0 (by omega)
    exact this.1.trans this.2
  rw [h2s] at h1 h2 hro
  obtain ⟨polys, g1, g2⟩ := polyPairs_spec (mx := inf) (mn := ninf) (s := s) (by omega) hro hmm (fun p hp d hd => (htab p hp d hd).2) (fun p hp d hd => (htab p hp d hd).1) n k outs es ⟨[], []⟩ hk1 h1 h2
  rw [List.nil_append, List.nil_append] at g1
  have hcount : ∀ x y, attainCount (blockTable (fun j => runs.flatten.flatten.getD j 0) 2 0) (fun r => (cumFrom 0 (runs.map List.length)).getD r 0) (2 * s) 2 (vec2 x y) =
      runsAttaining 2 runs [x, y] := by
    intro x y
    rw [← h2s, attainCount_runs hlen]
    simp [List.range_succ, vec2]
  refine ⟨polys, ⟨?_, ?_, ?_, ?_⟩, ?_⟩
  · intro p hp
    exact ⟨(g2.shape p hp).1, (g2.shape p hp).2, g2.corner p hp, g2.proper p hp⟩
  · intro x y
    have := g2.count x y
    rw [hcount] at this
    rw [← this]
    unfold polyCount
    rw [List.countP_eq_length_filter]
  · intro p hp
    obtain ⟨l, hc⟩ := g2.color p hp
    exact ⟨l, fun x y h => by rw [← hcount]; exact (hc x y h).1⟩
  · intro p hp x y h
    obtain ⟨l, hc⟩ := g2.color p hp
    rw [(hc x y h).2]
    unfold pointColor
    rw [attainedBetween_runs hlen (by omega) (by omega), attainedBetween_runs hlen (by omega) (by omega)]
    have e1 : runs.length / 2 = s := by omega
    rw [e1, List.drop_zero, ← h2s, List.take_length]
  · rw [h3]
    have hes : es ≠ [] := by
      rintro rfl
      cases h2
      cases h1
    obtain ⟨e, es', rfl⟩ := List.exists_cons_of_ne_nil hes
    have hn : e.nruns = 2 * s := by
      cases h2 with
      | cons h _ => exact h.1
    unfold eafPrintPolygon
    rw [eafComputePolygon, hn, if_neg (by omega), g1]
    dsimp only
    unfold polygonLines polyXY
    simp [List.flatMap_def, Function.comp_def, List.map_flatten]

/-- Without options for levels. -/
theorem C87_all_levels_partial (he : EafEnvOk env) {args : List EafArg} (hargs : ∀ a ∈ args, a ≠ .best ∧ a ≠ .median ∧ a ≠ .worst ∧ a.percentile? = none ∧ a.level? = none) {files : List (List Char)}
    {runs : List (List (List K))} (hf : FilesRuns env.scan 2 files runs) (hr : runs ≠ []) (heven : Even runs.length) (hs : runs.flatten.length ≤ 1073741823) {inf ninf : K}
    (hb : ∀ t ∈ runs, ∀ r ∈ t, ∀ d < 2, ninf < obj r d ∧ obj r d < inf) (fuelP : ℕ) :
    ∃ polys, PolygonsBetween inf ninf runs 1 (runs.length - 1) polys ∧
      eafMainPolygons env inf ninf fuelP args files = .exit 0 ((polygonLines ninf polys).map fun t => (pointsTo args, t)) := by
  have hpos : 1 ≤ runs.length := List.length_pos_iff.2 hr
  have e1 : args.filterMap EafArg.percentile? = [] := List.filterMap_eq_nil_iff.2 fun a ha => (hargs a ha).2.2.2.1
  have e2 : args.filterMap EafArg.level? = [] := List.filterMap_eq_nil_iff.2 fun a ha => (hargs a ha).2.2.2.2
  refine C87_polygons_partial (ps := []) (ls := []) he (by rw [e1]; exact .nil) (by rw [e2]; exact .nil) (by simp) (by simp) hf hr heven hs ?_ ?_ hb fuelP
  · rintro ⟨-, -, -, ⟨p, hp, -⟩ | ⟨-, l, hl, -⟩⟩ <;> simp at *
  · unfold LevelsOf
    rw [if_neg (fun h => (hargs _ h).1 rfl), if_neg (fun h => (hargs _ h).2.1 rfl), if_neg (fun h => (hargs _ h).2.2.1 rfl), if_neg (by simp), if_neg (by simp), List.range'_eq_map_range,
      show runs.length - 1 + 1 = runs.length by omega]
    apply List.map_congr_left
    intro i _
    omega

/-- **C87 is false for an odd number of runs**: an assertion fails. -/
theorem C87_false_odd_runs (he : EafEnvOk env) {args : List EafArg} {ps : List K} {ls : List ℤ} (hp : ArgNumbers env.scan (args.filterMap EafArg.percentile?) ps)
    (hl : ArgNumbers env.scanInt (args.filterMap EafArg.level?) ls) (hps : ps.length < 50) (hls : ls.length < 50) {files : List (List Char)} {runs : List (List (List K))}
    (hf : FilesRuns env.scan 2 files runs) (hodd : Odd runs.length) (hs : runs.flatten.length ≤ 1073741823) (hw : ¬ LevelsWrong runs.length args ps ls) (inf ninf : K) (fuelP : ℕ) :
    eafMainPolygons env inf ninf fuelP args files = .undefined := by
  have hpos : 1 ≤ runs.length := hodd.pos
  have hr : runs ≠ [] := List.length_pos_iff.1 hpos
  obtain ⟨ks, -, hk2, hk3⟩ := eafLevels_ok env.tol he.tol.1 he.tol.2 hpos args ps ls hw
  obtain ⟨outs, es, h1, h2, h3⟩ := eafMainPolygons_run he hp hl hps hls hf hr hs hw hk2 inf ninf fuelP
  rw [h3]
  unfold eafPrintPolygon
  cases h2 with
  | nil => rfl
  | @cons out e outs es h2 _ =>
    rw [C65_odd_runs_abort inf ninf e es (by rw [h2.1]; exact Nat.odd_iff.1 hodd)]

end

/-! ### Where the claim is false -/

deriving instance DecidableEq for ProgOut

/-- **C87 is false for levels that are not in ascending order**: an assertion fails. -/
theorem C87_false_level_order : eafMainPolygons eafRatEnv 1000 (-1000) 0 [.level "2,1".toList] ["1 3\n\n2 2\n\n3 1\n\n2 3\n".toList] = .undefined := by decide +kernel

/-- **C87 is false for levels that are not successive**: in the second polygon, the difference of the numbers of runs is 1 at (2, 2) and 0 at (3, 2). -/
theorem C87_false_level_gap : eafMainPolygons eafRatEnv 1000 (-1000) 0 [.level "1,3".toList] ["1 3\n\n2 2\n\n3 1\n\n2 3\n".toList] =
      .exit 0 ((polygonLines (-1000) [([(1, 1000), (1, 3), (2, 3), (2, 1000)], 1), ([(2, 3), (2, 2), (1000, 2), (1000, 3)], 1), ([(3, 2), (3, 1), (1000, 1), (1000, 2)], -1)]).map fun t => (.stdout, t)) ∧
    InPolygon [((2 : ℚ), (3 : ℚ)), (2, 2), (1000, 2), (1000, 3)] 2 2 ∧ InPolygon [((2 : ℚ), (3 : ℚ)), (2, 2), (1000, 2), (1000, 3)] 3 2 := by
  refine ⟨by decide +kernel, by decide +kernel, by decide +kernel⟩

/-! ### Examples -/

/-- Four runs, all levels. -/
theorem filesRuns_ex4 : FilesRuns scanRat 2 ["1 3\n\n2 2\n\n3 1\n\n2 3\n".toList] [[[1, 3]], [[2, 2]], [[3, 1]], [[2, 3]]] := .data _ _ [[[1, 3]], [[2, 2]], [[3, 1]], [[2, 3]]] [] (checkText_sound (by decide +kernel)) .nil

example (fuelP : ℕ) : ∃ polys, PolygonsBetween 1000 (-1000) [[[1, 3]], [[2, 2]], [[3, 1]], [[2, 3]]] 1 3 polys ∧
    eafMainPolygons eafRatEnv 1000 (-1000) fuelP [.quiet, .output ['f']] ["1 3\n\n2 2\n\n3 1\n\n2 3\n".toList] = .exit 0 ((polygonLines (-1000) polys).map fun t => (.file ['f'], t)) :=
  C87_all_levels_partial (args := [.quiet, .output ['f']]) eafRatEnv_ok (by simp [EafArg.percentile?, EafArg.level?]) filesRuns_ex4 (by simp) ⟨2, rfl⟩ (by simp) (by
    intro t ht r hr d hd
    have h2 : d = 0 ∨ d = 1 := by omega
    simp at ht
    rcases ht with rfl | rfl | rfl | rfl <;> simp at hr <;> subst hr <;> rcases h2 with rfl | rfl <;> norm_num [obj]) fuelP

/-- These are the polygons. -/
example : eafMainPolygons eafRatEnv 1000 (-1000) 0 [] ["1 3\n\n2 2\n\n3 1\n\n2 3\n".toList] =
    .exit 0 ((polygonLines (-1000) [([(1, 1000), (1, 3), (2, 3), (2, 1000)], 1), ([(2, 3), (2, 2), (3, 2), (3, 3)], 1), ([(3, 2), (3, 1), (1000, 1), (1000, 2)], -1),
      ([(3, 3), (3, 2), (1000, 2), (1000, 3)], 0), ([(2, 1000), (2, 3), (3, 3), (3, 1000)], 1)]).map fun t => (.stdout, t)) := by decide +kernel

/-- Three runs. -/
example (fuelP : ℕ) : eafMainPolygons eafRatEnv 1000 (-1000) fuelP [] ["1 2\n2 1\n\n1 1\n".toList, "# none\n".toList, "0 3\n2 2\n".toList] = .undefined :=
  C87_false_odd_runs (args := []) (ps := []) (ls := []) eafRatEnv_ok .nil .nil (by simp) (by simp) filesRuns_ex ⟨1, rfl⟩ (by decide) (by
    rintro ⟨-, -, -, ⟨p, hp, -⟩ | ⟨-, l, hl, -⟩⟩ <;> simp at *) _ _ fuelP

end Moo
