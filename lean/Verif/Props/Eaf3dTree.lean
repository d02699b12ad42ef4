import Verif.Lemmas.Eaf3dTreeOut
import Verif.Props.Eaf3d
import Mathlib.Algebra.Order.Ring.Int

/-!
# The attainment function in three objectives on the nodes of its balanced trees, and its memory: C81, C95

`eaf3dTree` is the model of `eaf3d` in `Verif/Model/Eaf3dTree.lean`: every tree is a table of `left`, `right`, `parent`, `next`, `prev` and `depth` fields changed by
the functions of c/avl.c, and `mem` is what was in memory before the call.  `tf` is the number of steps that the loops of c/avl.c may take, `fuelO` the number of nodes that the
last loop may visit.  `F` is what is read in memory that has been released, and what other threads leave in the `static` variable of c/eaf3d.c:57.  The model stops with `none`
when a block is released that is not allocated, and it returns the blocks that are allocated at the end.
-/

set_option autoImplicit false
set_option linter.unusedSectionVars false

namespace Moo

variable {α : Type*} [LinearOrder α]

/-- What `eaf3d` stores for a level: the coordinates and the indicators. -/
def outValues (out : List (LNode α × (ℕ → ℤ))) : List ((α × α × α) × (ℕ → ℤ)) := out.map (fun o => ((o.1.x, o.1.y, o.1.z), o.2))

/-- `eaf3d` on the nodes of the trees returns what `eaf3d` on the sequences returns, and leaves the blocks of `Left3`. -/
theorem eaf3dTree_of {mn mx junk : α} {pts : ℕ → ℕ → α} {cumsize : ℕ → ℕ} {nruns : ℕ} {sz : List ℕ} {tf fuel fuelP fuelO : ℕ} {all : List (List (LNode α × (ℕ → ℤ)))}
    (hX : sz.length + 3 < 2 ^ 125) (hXf : sz.length + 3 < tf)
    (hp : ∀ i ∈ sz, mn < pts i 0 ∧ pts i 0 < mx ∧ mn < pts i 1 ∧ pts i 1 < mx) (hmm : mn < mx) (mem : TreeSt3 α) (F : Freed3 α)
    (hall : eaf3d mn mx junk pts cumsize nruns ((List.range nruns).map (fun k : ℕ => (k : ℤ) + 1)) sz fuel fuelP = some all) :
    ∃ live fresh, ∃ items : List ℕ, items.Nodup ∧ items.length = (all.map List.length).sum ∧ (∀ n ∈ items, 3 ≤ n ∧ n < fresh) ∧
      (∀ b, live b = true ↔ Left3 nruns fresh items b) ∧
      ∀ attlevel res, eaf3d mn mx junk pts cumsize nruns attlevel sz fuel fuelP = some res → (∀ out ∈ res, out.length ≤ fuelO) →
        eaf3dTree tf F mn mx mem pts cumsize nruns attlevel sz fuel fuelP fuelO = some (res.map outValues, live) := by
  unfold eaf3d at hall
  split at hall
  · simp at hall
  next st hst =>
  set X : List α := mn :: mx :: sz.map (fun i => pts i 0) with hXd
  have hXl : X.length = sz.length + 2 := by simp [hXd]
  obtain ⟨t, sl, h1, h2, hN⟩ := treeEaf3df_sim (X := X) (tf := tf) (by omega) (by omega) (by omega) (by
    intro p hp'
    rw [eaf3dList, List.mem_map] at hp'
    obtain ⟨i, hi, rfl⟩ := hp'
    refine ⟨hp i hi, ?_⟩
    simp only [hXd, List.mem_cons, List.mem_map]
    exact Or.inr (Or.inr ⟨i, hi, rfl⟩)) hmm (by simp [hXd]) (by simp [hXd]) mem F hst
  split at hall
  · simp at hall
  next output hout =>
  obtain ⟨output', live0, g1, g2, g3, g4, g5⟩ := treeOutputs_sim (X := X) (tf := tf) (by omega) (by omega) hmm F h2.lev (List.range nruns) output t.live List.nodup_range (by
    intro k hk b hb
    rw [List.mem_range] at hk
    simp only [levelSentBlks, List.mem_cons, List.not_mem_nil, or_false] at hb
    rcases hb with rfl | rfl | rfl | rfl <;> rw [hN _ ⟨by simp, by simp, by simp⟩] <;> simp [initLive3, hk]) hout
  rw [List.length_range] at g2 g3
  set items : List ℕ := output.flatMap (fun nodes => nodes.map LNode.num) with hitems
  have hrel : ∀ i (h2 : i < output.length) (h3 : i < output'.length), OutRel mn mx junk st t i output[i] output'[i] := by
    intro i i2 i3
    have := g4 i (by rw [List.length_range]; omega) i2 i3
    rwa [List.getElem_range] at this
  have hit : ∀ n, n ∈ items ↔ ∃ k < nruns, ∃ m ∈ st.levels k ++ st.outs k, 2 ≤ m.id ∧ m.num = n := by
    intro n
    rw [hitems, List.mem_flatMap]
    constructor
    · rintro ⟨nodes, hn, hm⟩
      obtain ⟨i, hi, rfl⟩ := List.getElem_of_mem hn
      obtain ⟨m, hm1, rfl⟩ := List.mem_map.1 hm
      obtain ⟨m1, m2⟩ := ((hrel i hi (by omega)).mem m).1 hm1
      exact ⟨i, by omega, m, m1, m2, rfl⟩
    · rintro ⟨k, hk, m, m1, m2, rfl⟩
      have hk' : k < output.length := by omega
      exact ⟨output[k], List.getElem_mem hk', List.mem_map.2 ⟨m, ((hrel k hk' (by omega)).mem m).2 ⟨m1, m2⟩, rfl⟩⟩
  obtain ⟨live1, f1, f2⟩ := left3_of (tf := tf) (by omega) F h2 hN g5 hit
  refine ⟨_, t.nodes.fresh, items, ?_, ?_, ?_, f2, ?_⟩
  · rw [hitems, List.nodup_flatMap]
    constructor
    · intro nodes hn
      obtain ⟨i, hi, rfl⟩ := List.getElem_of_mem hn
      exact (hrel i hi (by omega)).nodup
    · rw [List.pairwise_iff_getElem]
      intro i j hi hj hij x hx hx'
      obtain ⟨m, hm, rfl⟩ := List.mem_map.1 hx
      obtain ⟨m', hm', e⟩ := List.mem_map.1 hx'
      obtain ⟨a1, a2⟩ := ((hrel i hi (by omega)).mem m).1 hm
      obtain ⟨b1, -⟩ := ((hrel j hj (by omega)).mem m').1 hm'
      exact h2.lev.disj i j (by omega) m a1 m' b1 a2 e.symm
  · obtain ⟨hlen, hget⟩ := forall₂_get (mapM_forall₂e _ _ hall)
    rw [List.length_map, List.length_range] at hlen
    rw [hitems, List.length_flatMap]
    refine congrArg List.sum (List.ext_getElem (by rw [List.length_map, List.length_map]; omega) ?_)
    intro i i1 i2
    rw [List.length_map] at i1 i2
    have := hget i (by rw [List.length_map, List.length_range]; omega) i2
    rw [List.getElem_map, List.getElem_range, if_neg (by omega), show ((i : ℤ) + 1 - 1).toNat = i by omega, List.getElem?_eq_getElem i1] at this
    rw [List.getElem_map, List.getElem_map, List.length_map]
    exact eaf3dOut_length this
  · intro n hn
    obtain ⟨k, -, m, m1, m2, rfl⟩ := (hit n).1 hn
    exact ⟨by unfold LNode.num; omega, (h2.lev.known k m m1).lt⟩
  intro attlevel res h hO
  unfold eaf3d at h
  rw [hst] at h
  dsimp only at h
  rw [hout] at h
  dsimp only at h
  unfold eaf3dTree
  rw [h1]
  dsimp only
  rw [g1]
  dsimp only
  rw [f1]
  dsimp only
  set N' := (t.nodes.poison 1 (F.item 1)).poison 2 (F.item 2) with hN'
  have hK : ∀ n, Known t.nodes n → Known N' n := fun n hn => ⟨hn.lt, hn.set⟩
  have hH : ∀ n, 2 ≤ n.id → Held t.nodes n → Held N' n := fun n h2 hn =>
    (hn.congr (itemsAt_poison _ _ _ _ (by unfold LNode.num; omega))).congr (itemsAt_poison _ _ _ _ (by unfold LNode.num; omega))
  have hfin : ∀ (l : List ℤ) (r : List (List (LNode α × (ℕ → ℤ)))), (∀ out ∈ r, out.length ≤ fuelO) → l.mapM (fun l : ℤ =>
        if ¬ 1 ≤ l then none
        else
          match output[(l - 1).toNat]? with
          | none => none
          | some nodes => eaf3dOut st.heap fuelP nodes) = some r → l.mapM (fun l : ℤ =>
        if ¬ 1 ≤ l then none
        else
          match output'[(l - 1).toNat]? with
          | none => none
          | some (next, head) => treeEaf3dOut N' next fuelP fuelO head) = some (r.map outValues) := by
    intro l
    induction l with
    | nil =>
      intro r _ hr
      simp only [List.mapM_nil, Option.pure_def, Option.some.injEq] at hr
      subst hr; rfl
    | cons a l ih =>
      intro r hr0 hr
      rw [List.mapM_cons] at hr
      simp only [Option.bind_eq_bind, Option.pure_def] at hr
      obtain ⟨out, k1, k2⟩ := Option.bind_eq_some_iff.1 hr
      obtain ⟨r1, k3, k4⟩ := Option.bind_eq_some_iff.1 k2
      simp only [Option.some.injEq] at k4
      subst k4
      by_cases ha : ¬ 1 ≤ a
      · rw [if_pos ha] at k1; simp at k1
      rw [if_neg ha] at k1
      split at k1
      · simp at k1
      next nodes hn =>
      obtain ⟨hlt, hne⟩ := List.getElem?_eq_some_iff.1 hn
      have hlt' : (a - 1).toNat < output'.length := by omega
      have ho := hrel (a - 1).toNat hlt hlt'
      rw [hne] at ho
      have hol := eaf3dOut_length k1
      have := treeEaf3dOut_sim (N := N') (h2.lev.prom.congr rfl rfl) (h2.lev.rem.congr rfl rfl) (h2.lev.eql.congr rfl rfl) nodes fuelO out (by rw [hol]; exact hr0 out (by simp)) (by
        intro n hn
        obtain ⟨a1, a2⟩ := ho.known n hn
        refine ⟨⟨hK n a1, a2⟩, hH n a2 ?_⟩
        exact h2.lev.held _ n ((ho.mem n).1 hn).1) ho.chain k1
      rw [List.mapM_cons, if_neg ha, List.getElem?_eq_getElem hlt']
      dsimp only
      rw [ho.head, this, ih r1 (fun o ho => hr0 o (by simp [ho])) k3]
      rfl
  exact (congrArg (Option.map _) (hfin attlevel res hO h)).trans rfl

section main
variable {pts : ℕ → ℕ → α} {cumsize : ℕ → ℕ} {nruns : ℕ} {sz : List ℕ} {mn mx : α} {tf fuel fuelO : ℕ}

theorem eaf3dTree_levels (hr : RunsOk cumsize nruns) (hz : EafSortedZ pts (cumsize (nruns - 1)) sz)
    (hb : ∀ i < cumsize (nruns - 1), ∀ d < 2, mn < pts i d ∧ pts i d < mx) (hf : cumsize (nruns - 1) + 3 ≤ fuel)
    (hsize : cumsize (nruns - 1) + 3 < 2 ^ 125) (htf : cumsize (nruns - 1) + 3 < tf) (hO : cumsize (nruns - 1) * cumsize (nruns - 1) ≤ fuelO) (junk : α) :
    ∃ N, ∀ fuelP, N ≤ fuelP → ∀ (mem : TreeSt3 α) (F : Freed3 α), ∃ all live fresh, ∃ items : List ℕ,
      List.Forall₂ (Eaf3LevelOk pts cumsize nruns) ((List.range nruns).map (· + 1)) all ∧ items.Nodup ∧ items.length = (all.map List.length).sum ∧ (∀ n ∈ items, 3 ≤ n ∧ n < fresh) ∧
      (∀ b, live b = true ↔ Left3 nruns fresh items b) ∧ ∀ levels : List ℕ, (∀ k ∈ levels, 1 ≤ k ∧ k ≤ nruns) →
      ∃ res, eaf3d mn mx junk pts cumsize nruns (levels.map Int.ofNat) sz fuel fuelP = some res ∧
        eaf3dTree tf F mn mx mem pts cumsize nruns (levels.map Int.ofNat) sz fuel fuelP fuelO = some (res.map outValues, live) ∧
        List.Forall₂ (Eaf3LevelOk pts cumsize nruns) levels res := by
  obtain ⟨N, h⟩ := eaf3d_levels (junk := junk) hr hz hb hf
  refine ⟨N, fun fuelP hfP mem F => ?_⟩
  have hlen : sz.length = cumsize (nruns - 1) := by rw [hz.1.length_eq, List.length_range]
  have hmem : ∀ i ∈ sz, i < cumsize (nruns - 1) := fun i hi => List.mem_range.1 (hz.1.mem_iff.1 hi)
  have hpos := hr.2.2
  obtain ⟨all, a1, a2⟩ := h fuelP hfP ((List.range nruns).map (· + 1)) (by
    intro k hk
    rw [List.mem_map] at hk
    obtain ⟨i, hi, rfl⟩ := hk
    rw [List.mem_range] at hi
    omega)
  rw [List.map_map] at a1
  obtain ⟨live, fresh, items, c1, c2, c3, c4, c5⟩ := eaf3dTree_of (tf := tf) (fuelO := fuelO) (by omega) (by omega) (by
    intro i hi
    have h0 := hb i (hmem i hi) 0 (by omega)
    have h1 := hb i (hmem i hi) 1 (by omega)
    exact ⟨h0.1, h0.2, h1.1, h1.2⟩) ((hb 0 hpos 0 (by omega)).1.trans (hb 0 hpos 0 (by omega)).2) mem F a1
  refine ⟨all, live, fresh, items, a2, c1, c2, c3, c4, fun levels hl => ?_⟩
  obtain ⟨res, h1, h2⟩ := h fuelP hfP levels hl
  refine ⟨res, h1, c5 _ res h1 ?_, h2⟩
  intro out ho
  obtain ⟨i, hi, rfl⟩ := List.getElem_of_mem ho
  obtain ⟨h3, h4⟩ := forall₂_get h2
  have hil : i < levels.length := by omega
  exact ((h4 i hil hi).length_le hr (hl _ (List.getElem_mem hil)).1).trans hO

/-- **C81**: `eaf3d` on the nodes of its trees never follows a null pointer, never releases a block that is not allocated, and stops, for whatever was
in memory before and whatever is read in released memory, and it stores the same points and indicators, in the same
order, as `eaf3d` on sequences (C42). -/
theorem C81_eaf3d_tree_same (hr : RunsOk cumsize nruns) (hz : EafSortedZ pts (cumsize (nruns - 1)) sz)
    (hb : ∀ i < cumsize (nruns - 1), ∀ d < 2, mn < pts i d ∧ pts i d < mx) (hf : cumsize (nruns - 1) + 3 ≤ fuel)
    (hsize : cumsize (nruns - 1) + 3 < 2 ^ 125) (htf : cumsize (nruns - 1) + 3 < tf) (hO : cumsize (nruns - 1) * cumsize (nruns - 1) ≤ fuelO) (junk : α) :
    ∃ N, ∀ fuelP, N ≤ fuelP → ∀ levels : List ℕ, (∀ k ∈ levels, 1 ≤ k ∧ k ≤ nruns) → ∀ (mem : TreeSt3 α) (F : Freed3 α),
      ∃ res live, eaf3d mn mx junk pts cumsize nruns (levels.map Int.ofNat) sz fuel fuelP = some res ∧
        eaf3dTree tf F mn mx mem pts cumsize nruns (levels.map Int.ofNat) sz fuel fuelP fuelO =
          some (res.map (fun out => out.map (fun o => ((o.1.x, o.1.y, o.1.z), o.2))), live) := by
  obtain ⟨N, h⟩ := eaf3dTree_levels hr hz hb hf hsize htf hO junk
  refine ⟨N, fun fuelP hfP levels hl mem F => ?_⟩
  obtain ⟨-, live, -, -, -, -, -, -, -, h0⟩ := h fuelP hfP mem F
  obtain ⟨res, h1, h2, -⟩ := h0 levels hl
  exact ⟨res, live, h1, h2⟩

/-- **C81**, without the other model: for each level `k` asked for, the points stored are, without repetition, the minimal vectors attained by at least `k` runs, and entry `r` of
the indicators of a point is nonzero iff run `r` attains the point. -/
theorem C81_eaf3d_tree_surfaces (hr : RunsOk cumsize nruns) (hz : EafSortedZ pts (cumsize (nruns - 1)) sz)
    (hb : ∀ i < cumsize (nruns - 1), ∀ d < 2, mn < pts i d ∧ pts i d < mx) (hf : cumsize (nruns - 1) + 3 ≤ fuel)
    (hsize : cumsize (nruns - 1) + 3 < 2 ^ 125) (htf : cumsize (nruns - 1) + 3 < tf) (hO : cumsize (nruns - 1) * cumsize (nruns - 1) ≤ fuelO) :
    ∃ N, ∀ fuelP, N ≤ fuelP → ∀ levels : List ℕ, (∀ k ∈ levels, 1 ≤ k ∧ k ≤ nruns) → ∀ (mem : TreeSt3 α) (F : Freed3 α),
      ∃ res live, eaf3dTree tf F mn mx mem pts cumsize nruns (levels.map Int.ofNat) sz fuel fuelP fuelO = some (res, live) ∧ res.length = levels.length ∧
        ∀ i (hi : i < levels.length) (hi' : i < res.length), (res[i].map Prod.fst).Nodup ∧
          (∀ x y z, (x, y, z) ∈ res[i].map Prod.fst ↔ MinimalAttained pts cumsize nruns 3 levels[i] (vec3 x y z)) ∧
          ∀ o ∈ res[i], ∀ r < nruns, o.2 r ≠ 0 ↔ Attains pts cumsize 3 r (vec3 o.1.1 o.1.2.1 o.1.2.2) := by
  obtain ⟨N, h⟩ := eaf3dTree_levels hr hz hb hf hsize htf hO (pts 0 2)
  refine ⟨N, fun fuelP hfP levels hl mem F => ?_⟩
  obtain ⟨-, live, -, -, -, -, -, -, -, h0⟩ := h fuelP hfP mem F
  obtain ⟨res, -, h2, h3⟩ := h0 levels hl
  obtain ⟨h4, h5⟩ := forall₂_get h3
  refine ⟨_, live, h2, by rw [List.length_map]; exact h4, ?_⟩
  intro i hi hi'
  have hi2 : i < res.length := by rw [List.length_map] at hi'; exact hi'
  have hL := h5 i hi hi2
  have e : ((res.map outValues)[i]).map Prod.fst = eaf3dPoints res[i] := by
    rw [List.getElem_map, outValues, List.map_map]
    rfl
  rw [e]
  refine ⟨hL.nodup, hL.points, ?_⟩
  intro o ho
  rw [List.getElem_map, outValues, List.mem_map] at ho
  obtain ⟨o', ho', rfl⟩ := ho
  exact hL.bits o' ho'

/-- **C95**: whatever was in memory before, whatever is read in released memory and whatever other threads store in the `static` list of `eaf3d`, the call stores the surfaces it
is asked for, it never releases a block twice or a block that it did not allocate, and the blocks that are still allocated when it returns are, for whatever levels it is asked for:
the array of surfaces that it returns, `attained`, the array `output` and its `nruns` trees, `removed_list`, one node for each of the `nnodes` nodes `3, …, nnodes + 2` that were ever
made for the levels, and one item for each point of each of the `nruns` surfaces. -/
theorem C95_eaf3d_memory (hr : RunsOk cumsize nruns) (hz : EafSortedZ pts (cumsize (nruns - 1)) sz)
    (hb : ∀ i < cumsize (nruns - 1), ∀ d < 2, mn < pts i d ∧ pts i d < mx) (hf : cumsize (nruns - 1) + 3 ≤ fuel)
    (hsize : cumsize (nruns - 1) + 3 < 2 ^ 125) (htf : cumsize (nruns - 1) + 3 < tf) (hO : cumsize (nruns - 1) * cumsize (nruns - 1) ≤ fuelO) :
    ∃ N, ∀ fuelP, N ≤ fuelP → ∀ (mem : TreeSt3 α) (F : Freed3 α), ∃ (live : Blk3 → Bool) (nnodes : ℕ) (items : List ℕ) (surfaces : List (List (α × α × α))),
      (∀ levels : List ℕ, (∀ k ∈ levels, 1 ≤ k ∧ k ≤ nruns) → ∃ res, eaf3dTree tf F mn mx mem pts cumsize nruns (levels.map Int.ofNat) sz fuel fuelP fuelO = some (res, live) ∧
        ∃ h : res.length = levels.length, ∀ i (hi : i < levels.length), (res[i].map Prod.fst).Nodup ∧
          ∀ x y z, (x, y, z) ∈ res[i].map Prod.fst ↔ MinimalAttained pts cumsize nruns 3 levels[i] (vec3 x y z)) ∧
      (surfaces.length = nruns ∧ ∀ k (hk : k < surfaces.length), surfaces[k].Nodup ∧
        ∀ x y z, (x, y, z) ∈ surfaces[k] ↔ MinimalAttained pts cumsize nruns 3 (k + 1) (vec3 x y z)) ∧
      items.Nodup ∧ items.length = (surfaces.map List.length).sum ∧ (∀ n ∈ items, 3 ≤ n ∧ n < nnodes + 3) ∧
      ∀ b, live b = true ↔ b = .eafArr ∨ b = .attained ∨ b = .outputArr ∨ (∃ i < nruns, b = .outTree i) ∨ b = .removedList ∨
        (∃ n, 3 ≤ n ∧ n < nnodes + 3 ∧ b = .levelNode n) ∨ ∃ n ∈ items, b = .levelItem n := by
  obtain ⟨N, h⟩ := eaf3dTree_levels hr hz hb hf hsize htf hO (pts 0 2)
  refine ⟨N, fun fuelP hfP mem F => ?_⟩
  obtain ⟨all, live, fresh, items, h0, h1, h2, h3, h4, h5⟩ := h fuelP hfP mem F
  refine ⟨live, fresh - 3, items, all.map eaf3dPoints, ?_, ?_, h1, ?_, fun n hn => ⟨(h3 n hn).1, by have := h3 n hn; omega⟩, ?_⟩
  · intro levels hl
    obtain ⟨res, -, q2, q3⟩ := h5 levels hl
    obtain ⟨l1, l2⟩ := forall₂_get q3
    refine ⟨_, q2, by rw [List.length_map]; omega, fun i hi => ?_⟩
    have hL := l2 i hi (by omega)
    have e : ((res.map outValues)[i]'(by rw [List.length_map]; omega)).map Prod.fst = eaf3dPoints (res[i]'(by omega)) := by
      rw [List.getElem_map, outValues, List.map_map]
      rfl
    rw [e]
    exact ⟨hL.nodup, hL.points⟩
  · obtain ⟨l1, l2⟩ := forall₂_get h0
    rw [List.length_map, List.length_range] at l1
    refine ⟨by rw [List.length_map]; omega, fun k hk => ?_⟩
    rw [List.length_map] at hk
    have hL := l2 k (by rw [List.length_map, List.length_range]; omega) hk
    rw [List.getElem_map, List.getElem_range] at hL
    rw [List.getElem_map]
    exact ⟨hL.nodup, hL.points⟩
  · rw [h2, List.map_map]
    refine congrArg List.sum (List.map_congr_left fun out _ => ?_)
    simp [eaf3dPoints]
  · intro b
    rw [h4]
    cases b <;> (simp [Left3]; try omega)

/-- **C95**, what stays allocated: every call leaves at least `3 + nruns` blocks and one more for each point of each of the `nruns` surfaces, apart from the array that it returns. -/
theorem C95_eaf3d_leaks (hr : RunsOk cumsize nruns) (hz : EafSortedZ pts (cumsize (nruns - 1)) sz)
    (hb : ∀ i < cumsize (nruns - 1), ∀ d < 2, mn < pts i d ∧ pts i d < mx) (hf : cumsize (nruns - 1) + 3 ≤ fuel)
    (hsize : cumsize (nruns - 1) + 3 < 2 ^ 125) (htf : cumsize (nruns - 1) + 3 < tf) (hO : cumsize (nruns - 1) * cumsize (nruns - 1) ≤ fuelO) :
    ∃ N, ∀ fuelP, N ≤ fuelP → ∀ (mem : TreeSt3 α) (F : Freed3 α), ∀ levels : List ℕ, (∀ k ∈ levels, 1 ≤ k ∧ k ≤ nruns) → ∃ res live,
      eaf3dTree tf F mn mx mem pts cumsize nruns (levels.map Int.ofNat) sz fuel fuelP fuelO = some (res, live) ∧
        ∃ (blocks : List Blk3) (surfaces : List (List (α × α × α))), blocks.Nodup ∧ (∀ b ∈ blocks, live b = true ∧ b ≠ .eafArr) ∧
          blocks.length = 3 + nruns + 2 * (surfaces.map List.length).sum ∧ surfaces.length = nruns ∧ ∀ k (hk : k < surfaces.length), surfaces[k].Nodup ∧
            ∀ x y z, (x, y, z) ∈ surfaces[k] ↔ MinimalAttained pts cumsize nruns 3 (k + 1) (vec3 x y z) := by
  obtain ⟨N, h⟩ := C95_eaf3d_memory hr hz hb hf hsize htf hO
  refine ⟨N, fun fuelP hfP mem F levels hl => ?_⟩
  obtain ⟨live, nnodes, items, surfaces, h1, h2, h3, h4, h5, h6⟩ := h fuelP hfP mem F
  obtain ⟨res, r1, -⟩ := h1 levels hl
  refine ⟨res, live, r1, [.attained, .outputArr, .removedList] ++ ((List.range nruns).map .outTree ++ (items.map .levelNode ++ items.map .levelItem)), surfaces, ?_, ?_, ?_, h2⟩
  · rw [List.nodup_append, List.nodup_append, List.nodup_append]
    refine ⟨by simp, ⟨List.nodup_range.map (fun a b e => by simpa using e), ⟨h3.map (fun a b e => by simpa using e), h3.map (fun a b e => by simpa using e), ?_⟩, ?_⟩, ?_⟩
    · intro a ha b hb e
      obtain ⟨_, -, rfl⟩ := List.mem_map.1 ha
      obtain ⟨_, -, rfl⟩ := List.mem_map.1 hb
      simp at e
    · intro a ha b hb e
      obtain ⟨_, -, rfl⟩ := List.mem_map.1 ha
      rcases List.mem_append.1 hb with hb | hb <;> (obtain ⟨_, -, rfl⟩ := List.mem_map.1 hb; simp at e)
    · intro a ha b hb e
      subst e
      simp at ha hb
      rcases ha with rfl | rfl | rfl <;> simp at hb
  · intro b hb'
    rw [h6]
    simp only [List.mem_append, List.mem_cons, List.not_mem_nil, or_false, List.mem_map, List.mem_range] at hb'
    rcases hb' with (rfl | rfl | rfl) | ⟨i, hi, rfl⟩ | ⟨n, hn, rfl⟩ | ⟨n, hn, rfl⟩
    · simp
    · simp
    · simp
    · simp [hi]
    · have := h5 n hn
      simp
      omega
    · simp [hn]
  · simp [h4]
    omega

end main

/-! ## The hypotheses are met -/

/-- Memory full of fives. -/
def eaf3ExMem : TreeSt3 ℤ :=
  let h : AvlHeap := ⟨fun _ => 5, fun _ => 5, fun _ => 5, fun _ => 5, fun _ => 5, fun _ => 5, 5, 5, 5⟩
  ⟨fun _ => h, fun _ => 5, fun _ => 5, 5, fun _ => h, fun _ => ⟨5, 5, 5⟩, ⟨5, fun _ => 5, fun _ => 5, fun _ => 5, fun _ => 5, fun _ => 5, fun _ => 5, fun _ => 5⟩, 5, fun _ => true⟩

/-- Released memory full of sevens. -/
def eaf3ExFreed : Freed3 ℤ := ⟨fun _ => (7, 7, 7), fun _ => ⟨7, 7, 7, 7, 7, 7⟩, fun _ => (7, 7), fun _ _ => ⟨7, 7, 7, 7, 7, 7⟩, fun _ _ => 7⟩

example : ∃ N, ∀ fuelP, N ≤ fuelP → ∀ levels : List ℕ, (∀ k ∈ levels, 1 ≤ k ∧ k ≤ 3) →
    ∃ res live, eaf3dTree 20 eaf3ExFreed (-100) 100 eaf3ExMem eaf3ExPts eaf3ExCum 3 (levels.map Int.ofNat) [2, 0, 4, 5, 1, 3] 9 fuelP 36 = some (res, live) ∧ res.length = levels.length :=
  let ⟨N, h⟩ := C81_eaf3d_tree_surfaces (tf := 20) (fuel := 9) (fuelO := 36) eaf3Ex_runs eaf3Ex_sorted eaf3Ex_bounds (by decide) (by decide) (by decide) (by decide)
  ⟨N, fun fuelP hf levels hl => let ⟨res, live, h1, h2, _⟩ := h fuelP hf levels hl eaf3ExMem eaf3ExFreed; ⟨res, live, h1, h2⟩⟩

set_option synthInstance.maxSize 2000 in
/-- The result on the example, with the attained runs of each point. -/
example : ((eaf3dTree 20 eaf3ExFreed (-100) 100 eaf3ExMem eaf3ExPts eaf3ExCum 3 [1, 2, 3] [2, 0, 4, 5, 1, 3] 9 200 36).map
    (fun r => r.1.map (fun out => out.map (fun o => (o.1.1, o.1.2.1, o.1.2.2, o.2 0, o.2 1, o.2 2))))) =
    some [[(1, 3, 1, 1, 0, 0), (2, 2, 1, 0, 1, 0), (3, 1, 2, 1, 0, 0)], [(2, 3, 1, 1, 1, 0), (1, 4, 2, 1, 1, 0), (2, 2, 2, 0, 1, 1)],
      [(3, 3, 1, 1, 1, 1), (2, 3, 2, 1, 1, 1), (3, 2, 2, 1, 1, 1)]] := by decide +kernel

set_option synthInstance.maxSize 2000 in
/-- What is left on the example: `attained`, `output`, a tree of `output` and an item, and neither an item that was released nor a tree of `set`. -/
example : ((eaf3dTree 20 eaf3ExFreed (-100) 100 eaf3ExMem eaf3ExPts eaf3ExCum 3 [2] [2, 0, 4, 5, 1, 3] 9 200 36).map
    (fun r => (r.2 .attained, r.2 .outputArr, r.2 (.outTree 2), ((List.range 24).filter (fun n => r.2 (.levelItem n))).length, r.2 (.setTree 0), r.2 (.levelTree 0), r.2 .list))) =
    some (true, true, true, 9, false, false, false) := by decide +kernel

end Moo
