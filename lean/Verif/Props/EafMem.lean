import Verif.Lemmas.EafMem
import Verif.Props.Eaf2d

/-!
# C108: the two-objective EAF uses memory correctly for every input; NaN
-/

set_option autoImplicit false
set_option linter.unusedSectionVars false

namespace Moo

section
variable {F : Type}

theorem eafMemOk_of (c : FCmp F) (asserts : Bool) (x : ℕ → ℕ → F) (n nruns : ℕ) (rt : ℕ → ℕ) (sx sy : List ℕ) (level : ℤ) (hx : sx.Perm (List.range n))
    (hy : sy.Perm (List.range n)) (hrt : ∀ i < n, rt i < nruns) (hn : 0 < n) :
    EafMemOk ⟨c, asserts, n, nruns, flatPts x 2 n, cells rt n, sx.map some, sy.map some, level⟩ x sx sy rt := by
  have key : ∀ s : List ℕ, s.Perm (List.range n) → s.length = n ∧ ∀ i < n, s.getD i 0 < n := by
    intro s hs
    have hl : s.length = n := by rw [hs.length_eq, List.length_range]
    refine ⟨hl, fun i hi => ?_⟩
    rw [List.getD_eq_getElem?_getD, List.getElem?_eq_getElem (by omega)]
    exact List.mem_range.1 (hs.mem_iff.1 (List.getElem_mem _))
  exact ⟨rfl, rfl, rfl, rfl, (key sx hx).1, (key sy hy).1, (key sx hx).2, (key sy hy).2, hrt, hn⟩

theorem eafLevelsM_ok (E : EafInM F) {x : ℕ → ℕ → F} {sx sy : List ℕ} {rt : ℕ → ℕ} (h : ∀ level, EafMemOk { E with level := level } x sx sy rt) (levels : ℕ → ℤ) (nl : ℕ)
    {fuel : ℕ} (hf : 2 * E.n + 2 ≤ fuel) : ∀ ls : List ℕ, (∀ l ∈ ls, l < nl) →
    (∃ res, eafLevelsM E (cells levels nl) fuel ls = .ok res ∧ res.length = ls.length ∧
      ∀ out ∈ res, out.length ≤ E.n ∧ ∀ o ∈ out, ∃ f : ℕ → ℤ, o.2.2 = cells f E.nruns) ∨
    (E.asserts = true ∧ eafLevelsM E (cells levels nl) fuel ls = .error .assertion) := by
  intro ls
  induction ls with
  | nil => intro _; exact .inl ⟨[], rfl, rfl, by simp⟩
  | cons l ls ih =>
    intro hl
    unfold eafLevelsM
    rw [ld_cells (hl l (by simp)), okBind]
    rcases eafLevelM_ok (h (levels l)) (fuel := fuel) hf with ⟨out, e, h1, h2⟩ | ⟨h1, e⟩
    · rw [e, okBind]
      rcases ih (fun l hl' => hl l (by simp [hl'])) with ⟨res, e', h3, h4⟩ | ⟨h3, e'⟩
      · rw [e', okBind]
        refine .inl ⟨_, rfl, by simp [h3], ?_⟩
        intro o ho
        rcases List.mem_cons.1 ho with rfl | ho
        · exact ⟨h1, h2⟩
        · exact h4 o ho
      · rw [e']; exact .inr ⟨h3, rfl⟩
    · rw [e]; exact .inr ⟨h1, rfl⟩

theorem eaf2dM_ok (c : FCmp F) (asserts : Bool) (sortX sortY : Blk F → List ℕ → List ℕ) (x : ℕ → ℕ → F) (cumsize : ℕ → ℕ) (nruns : ℕ) (levels : ℕ → ℤ) (nlevels fuel : ℕ)
    (hr : 0 < nruns) (hn : 0 < cumsize (nruns - 1)) (hf : 2 * cumsize (nruns - 1) + 2 ≤ fuel)
    (hx : ∀ b, (sortX b (List.range (cumsize (nruns - 1)))).Perm (List.range (cumsize (nruns - 1))))
    (hy : ∀ b, (sortY b (List.range (cumsize (nruns - 1)))).Perm (List.range (cumsize (nruns - 1)))) :
    (∃ res, eaf2dM c asserts sortX sortY (flatPts x 2 (cumsize (nruns - 1))) (cells cumsize nruns) nruns (cells levels nlevels) nlevels fuel = .ok res ∧
      res.length = nlevels ∧ ∀ out ∈ res, out.length ≤ cumsize (nruns - 1) ∧ ∀ o ∈ out, ∃ f : ℕ → ℤ, o.2.2 = cells f nruns) ∨
    (asserts = true ∧ eaf2dM c asserts sortX sortY (flatPts x 2 (cumsize (nruns - 1))) (cells cumsize nruns) nruns (cells levels nlevels) nlevels fuel = .error .assertion) := by
  unfold eaf2dM
  rw [ld_cells (by omega), okBind, fillM_alloc, okBind]
  obtain ⟨f, e, hf'⟩ := eafRuntabM_ok cumsize nruns (cumsize (nruns - 1)) hr rfl (cumsize (nruns - 1)) 0 0 (fun _ => none) (by omega) hr (by omega)
  rw [List.range_eq_range'] at hx hy ⊢
  rw [allocBlk_eq]
  dsimp only
  rw [e, okBind]
  have := eafLevelsM_ok ⟨c, asserts, cumsize (nruns - 1), nruns, flatPts x 2 (cumsize (nruns - 1)), cells f (cumsize (nruns - 1)), _, _, 0⟩
    (fun level => eafMemOk_of c asserts x (cumsize (nruns - 1)) nruns f (sortX (flatPts x 2 (cumsize (nruns - 1))) (List.range' 0 (cumsize (nruns - 1))))
      (sortY (flatPts x 2 (cumsize (nruns - 1))) (List.range' 0 (cumsize (nruns - 1)))) level (by rw [List.range_eq_range']; exact hx (flatPts x 2 (cumsize (nruns - 1))))
      (by rw [List.range_eq_range']; exact hy (flatPts x 2 (cumsize (nruns - 1)))) hf' hn)
    levels nlevels hf (List.range nlevels) (fun l hl => List.mem_range.1 hl)
  rw [List.length_range] at this
  exact this

/-- **C108.**  For every table with at least one row, whatever the values (NaN and infinities included, nothing is assumed of the comparisons), whatever the array of the
numbers of rows (empty runs or decreasing numbers included), for all levels, and whatever permutations `qsort` leaves: without assertions `eaf2d` ends, never
loads or stores outside of a block and never loads a value that was not written.  Each surface has at most as many points as the table has rows. -/
theorem C108_eaf2d_safe (c : FCmp F) (sortX sortY : Blk F → List ℕ → List ℕ) (x : ℕ → ℕ → F) (cumsize : ℕ → ℕ) (nruns : ℕ) (levels : ℕ → ℤ) (nlevels fuel : ℕ)
    (hr : 0 < nruns) (hn : 0 < cumsize (nruns - 1)) (hf : 2 * cumsize (nruns - 1) + 2 ≤ fuel)
    (hx : ∀ b, (sortX b (List.range (cumsize (nruns - 1)))).Perm (List.range (cumsize (nruns - 1))))
    (hy : ∀ b, (sortY b (List.range (cumsize (nruns - 1)))).Perm (List.range (cumsize (nruns - 1)))) :
    ∃ res, eaf2dM c false sortX sortY (flatPts x 2 (cumsize (nruns - 1))) (cells cumsize nruns) nruns (cells levels nlevels) nlevels fuel = .ok res ∧
      res.length = nlevels ∧ ∀ out ∈ res, out.length ≤ cumsize (nruns - 1) ∧ ∀ o ∈ out, ∃ f : ℕ → ℤ, o.2.2 = cells f nruns := by
  rcases eaf2dM_ok c false sortX sortY x cumsize nruns levels nlevels fuel hr hn hf hx hy with h | ⟨h, _⟩
  · exact h
  · exact absurd h (by simp)

/-- **C108.**  With assertions the same holds, except that the assertion after the downward loop may fail. -/
theorem C108_eaf2d_asserts (c : FCmp F) (sortX sortY : Blk F → List ℕ → List ℕ) (x : ℕ → ℕ → F) (cumsize : ℕ → ℕ) (nruns : ℕ) (levels : ℕ → ℤ) (nlevels fuel : ℕ)
    (hr : 0 < nruns) (hn : 0 < cumsize (nruns - 1)) (hf : 2 * cumsize (nruns - 1) + 2 ≤ fuel)
    (hx : ∀ b, (sortX b (List.range (cumsize (nruns - 1)))).Perm (List.range (cumsize (nruns - 1))))
    (hy : ∀ b, (sortY b (List.range (cumsize (nruns - 1)))).Perm (List.range (cumsize (nruns - 1)))) :
    (∃ res, eaf2dM c true sortX sortY (flatPts x 2 (cumsize (nruns - 1))) (cells cumsize nruns) nruns (cells levels nlevels) nlevels fuel = .ok res ∧ res.length = nlevels) ∨
    eaf2dM c true sortX sortY (flatPts x 2 (cumsize (nruns - 1))) (cells cumsize nruns) nruns (cells levels nlevels) nlevels fuel = .error .assertion := by
  rcases eaf2dM_ok c true sortX sortY x cumsize nruns levels nlevels fuel hr hn hf hx hy with ⟨res, h1, h2, _⟩ | ⟨_, h⟩
  · exact .inl ⟨res, h1, h2⟩
  · exact .inr h

end

section
variable {α : Type} [LinearOrder α]

theorem eafLevelsM_same (M : EafInM α) (pts : ℕ → ℕ → α) (cumsize : ℕ → ℕ) (nruns : ℕ) (sx sy : List ℕ) (fuel : ℕ) (levels : ℕ → ℤ) (nl : ℕ)
    (h : ∀ level, EafSameIn (eafInput pts cumsize nruns sx sy level) { M with level := level } sx sy) : ∀ (ls : List ℕ) (res : List (List (α × α × (ℕ → ℤ)))),
    (∀ l ∈ ls, l < nl) → eaf2d pts cumsize nruns (ls.map levels) sx sy fuel = some res →
    eafLevelsM M (cells levels nl) fuel ls = .ok (res.map (eafOutM M.nruns)) := by
  intro ls
  induction ls with
  | nil =>
    intro res _ he
    simp only [eaf2d, List.map_nil, List.mapM_nil] at he
    obtain rfl := Option.some.inj he
    rfl
  | cons l ls ih =>
    intro res hl he
    unfold eaf2d at he
    rw [List.map_cons, List.mapM_cons] at he
    cases h1 : eafLevel (eafInput pts cumsize nruns sx sy (levels l)) fuel with
    | none => unfold eafInput at h1; rw [h1] at he; simp at he
    | some out =>
      have h1' := h1
      unfold eafInput at h1'
      rw [h1'] at he
      cases h2 : eaf2d pts cumsize nruns (ls.map levels) sx sy fuel with
      | none => unfold eaf2d at h2; rw [h2] at he; simp at he
      | some rs =>
        have h2' := h2
        unfold eaf2d at h2'
        rw [h2'] at he
        obtain rfl := Option.some.inj he
        unfold eafLevelsM
        rw [ld_cells (hl l (by simp)), okBind, eafLevelM_same (h (levels l)) h1, okBind, ih rs (fun l hl' => hl l (by simp [hl'])) h2, okBind]
        rfl

/-- **C108.**  For values that can be compared (no NaN), runs that are not empty and arrays sorted as `qsort` sorts them, no assertion fails, and the stored points are exactly the minimal points
attained by at least `k` runs, for every requested level `k`. -/
theorem C108_no_nan (asserts : Bool) (sortX sortY : Blk α → List ℕ → List ℕ) (x : ℕ → ℕ → α) (cumsize : ℕ → ℕ) (nruns : ℕ) (levels : ℕ → ℕ) (nlevels fuel : ℕ)
    (hr : RunsOk cumsize nruns) (hf : 2 * cumsize (nruns - 1) < fuel) (hl : ∀ l < nlevels, 1 ≤ levels l)
    (hx : EafSortedX x (cumsize (nruns - 1)) (sortX (flatPts x 2 (cumsize (nruns - 1))) (List.range (cumsize (nruns - 1)))))
    (hy : EafSortedY x (cumsize (nruns - 1)) (sortY (flatPts x 2 (cumsize (nruns - 1))) (List.range (cumsize (nruns - 1))))) :
    ∃ res, eaf2dM (ordCmp α) asserts sortX sortY (flatPts x 2 (cumsize (nruns - 1))) (cells cumsize nruns) nruns (cells (fun l => (levels l : ℤ)) nlevels) nlevels fuel = .ok res ∧
      res.length = nlevels ∧ ∀ l (h : l < res.length), ∀ a b, (a, b) ∈ res[l].map (fun o => (o.1, o.2.1)) ↔ MinimalAttained x cumsize nruns 2 (levels l) (vec2 a b) := by
  obtain ⟨res, e, hlen, hmin⟩ := C23_eaf2d_minimal_points hr hx hy hf ((List.range nlevels).map levels) (by
    intro k hk
    obtain ⟨l, h1, rfl⟩ := List.mem_map.1 hk
    exact hl l (List.mem_range.1 h1))
  have hrt : ∀ k < cumsize (nruns - 1), eafRuntab cumsize k < nruns := fun k hk => (eafRuntab_spec hr k hk).2
  have hn : ∀ (sx sy : List ℕ), sx.Perm (List.range (cumsize (nruns - 1))) → sy.Perm (List.range (cumsize (nruns - 1))) → ∀ level,
      EafSameIn (eafInput x cumsize nruns sx sy level)
        ⟨ordCmp α, asserts, cumsize (nruns - 1), nruns, flatPts x 2 (cumsize (nruns - 1)), cells (eafRuntab cumsize) (cumsize (nruns - 1)), sx.map some, sy.map some, level⟩ sx sy :=
    fun sx sy p q level => ⟨eafMemOk_of _ _ _ _ _ _ _ _ _ p q hrt hr.2.2, rfl, rfl, rfl, rfl, rfl, rfl⟩
  rw [List.map_map] at e
  have hmain := eafLevelsM_same ⟨ordCmp α, asserts, cumsize (nruns - 1), nruns, flatPts x 2 (cumsize (nruns - 1)), cells (eafRuntab cumsize) (cumsize (nruns - 1)), _, _, 0⟩
    x cumsize nruns _ _ fuel (fun l => (levels l : ℤ)) nlevels (fun level => hn _ _ hx.1 hy.1 level) (List.range nlevels) res (fun l hl => List.mem_range.1 hl) e
  refine ⟨res.map (eafOutM nruns), ?_, by simpa using hlen, ?_⟩
  · unfold eaf2dM
    rw [ld_cells (by have := hr.1; omega), okBind, fillM_alloc, okBind]
    have e2 := eafRuntabM_same cumsize nruns (cumsize (nruns - 1)) hrt (cumsize (nruns - 1)) 0 0 (fun _ => none) (by omega) (by simp) hr.1 (by omega)
    rw [← List.range_eq_range', ← allocBlk_eq] at e2
    dsimp only
    rw [e2, okBind]
    exact hmain
  · intro l h a b
    have hl' : l < res.length := by simpa using h
    have hl2 : l < nlevels := by rw [hlen] at hl'; simpa using hl'
    have := (hmin l (by simpa using hl2) hl').2 a b
    simp only [List.getElem_map, List.getElem_range] at this
    rw [← this, List.getElem_map, eafOutM, List.map_map]
    rfl

end

/-! ## What fails -/

/-- **C108 is false without rows**: `eaf2d` of a table without rows reads outside of the array `datax`. -/
theorem C108_false_empty (F : Type) (c : FCmp F) (asserts : Bool) (sortX sortY : Blk F → List ℕ → List ℕ) (hx : ∀ b, sortX b [] = []) (fuel : ℕ) :
    eaf2dM c asserts sortX sortY [] [some 0] 1 [some 1] 1 fuel = .error .outOfBounds := by
  unfold eaf2dM
  simp [ldBlk, eafLevelsM, eafLevelM, fillM, okBind, hx, eafRuntabM, allocBlk, stBlk, List.range_succ]
  rfl

/-- One run with one point whose first objective is NaN: the assertion fails. -/
theorem C108_false_nan_assertion : eaf2dM (ieeeCmp ℤ) true (fun _ l => l) (fun _ l => l) [some none, some (some 0)] [some 1] 1 [some 1] 1 4 = .error .assertion := by
  rfl

/-- Two runs, {(NaN, 5)} and {(1, 1)}: without assertions the surface of level 1 is {(NaN, 1)}; the point (1, 1) of the second run is lost.  There is only one order of the second
objectives, and the first objectives may be in this order, because NaN and 1 are not comparable. -/
theorem C108_false_nan_loses_point :
    (eaf2dM (ieeeCmp ℤ) false (fun _ l => l) (fun _ l => l) [some none, some (some 5), some (some 1), some (some 1)] [some 1, some 2] 2 [some 1] 1 6).map
      (fun r => r.map (fun out => out.map (fun o => (o.1, o.2.1)))) = .ok [[(none, some 1)]] := by
  rfl

/-! ## Concrete runs -/

/-- The hypotheses of `C108_eaf2d_safe` are met by NaN data: the result of the identity as `qsort`. -/
example : ∃ res, eaf2dM (ieeeCmp ℤ) false (fun _ l => l) (fun _ l => l) (flatPts (fun i d => if i = d then none else some (i : ℤ)) 2 3) (cells (fun r => r + 2) 2) 2
    (cells (fun l => (l : ℤ) + 1) 2) 2 8 = .ok res ∧ res.length = 2 := by
  obtain ⟨res, h, h2, _⟩ := C108_eaf2d_safe (ieeeCmp ℤ) (fun _ l => l) (fun _ l => l) (fun i d => if i = d then none else some (i : ℤ)) (fun r => r + 2) 2
    (fun l => (l : ℤ) + 1) 2 8 (by omega) (by omega) (by omega) (fun _ => List.Perm.refl _) (fun _ => List.Perm.refl _)
  exact ⟨res, h, h2⟩

/-- Two runs, {(0, 3), (2, 1)} and {(1, 2)}; the two surfaces. -/
example : (eaf2dM (ordCmp ℤ) true (fun _ _ => [0, 2, 1]) (fun _ _ => [0, 2, 1]) [some 0, some 3, some 2, some 1, some 1, some 2] [some 2, some 3] 2 [some 1, some 2] 2 8).map
      (fun r => r.map (fun out => out.map (fun o => (o.1, o.2.1)))) = .ok [[(0, 3), (1, 2), (2, 1)], [(1, 3), (2, 2)]] := by
  decide +kernel

end Moo
