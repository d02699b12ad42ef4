import Verif.Model.WithinSets
import Mathlib.Data.List.GetD
import Mathlib.Data.List.Sort
import Mathlib.Data.List.Perm.Basic
import Mathlib.Data.List.Nodup
import Mathlib.Data.List.Range

/-!
# Lemmas on the set-by-set functions
-/

set_option autoImplicit false

namespace Moo

theorem npArgsort_perm (l : List ℕ) : (npArgsort l).Perm (List.range l.length) := List.perm_insertionSort _ _

theorem npArgsort_sorted (l : List ℕ) : ((npArgsort l).map (fun i => l.getD i 0)).Pairwise (· ≤ ·) := by
  rw [List.pairwise_map]
  have : Std.Total (fun a b : ℕ => l.getD a 0 ≤ l.getD b 0) := ⟨fun a b => le_total _ _⟩
  have : IsTrans ℕ (fun a b : ℕ => l.getD a 0 ≤ l.getD b 0) := ⟨fun a b c h1 h2 => le_trans h1 h2⟩
  exact List.pairwise_insertionSort (fun a b : ℕ => l.getD a 0 ≤ l.getD b 0) (List.range l.length)

theorem map_getD_range {γ : Type*} (l : List γ) (d : γ) : (List.range l.length).map (fun i => l.getD i d) = l := by
  apply List.ext_getElem
  · simp
  · intro i h1 h2
    rw [List.getElem_map, List.getElem_range, List.getD_eq_getElem _ _ h2]

theorem npArgsort_map_perm (l : List ℕ) : ((npArgsort l).map (fun i => l.getD i 0)).Perm l := by
  have := (npArgsort_perm l).map (fun i => l.getD i 0)
  rwa [map_getD_range] at this

/-- Sorting a list with the elements of an increasing list gives this list. -/
theorem npArgsort_map_eq {l m : List ℕ} (h : l.Perm m) (hm : m.Pairwise (· ≤ ·)) : (npArgsort l).map (fun i => l.getD i 0) = m :=
  List.Perm.eq_of_pairwise (fun _ _ _ _ h1 h2 => le_antisymm h1 h2) (npArgsort_sorted l) hm ((npArgsort_map_perm l).trans h)

section
variable {L : Type*} [LinearOrder L]

/-- The first occurrence of every label, in order. -/
def firsts (labels : List L) : List ℕ := (List.range labels.length).filter (fun j => decide (∃ x ∈ labels[j]?, labels.idxOf x = j))

/-- The rows with label `x`, in order. -/
def rowsWith (labels : List L) (x : L) : List ℕ := (List.range labels.length).filter (fun j => decide (labels[j]? = some x))

theorem npUnique_mem (l : List L) (x : L) : x ∈ npUnique l ↔ x ∈ l := by
  unfold npUnique
  rw [(List.perm_insertionSort _ _).mem_iff, List.mem_dedup]

theorem npUnique_nodup (l : List L) : (npUnique l).Nodup := by
  unfold npUnique
  exact (List.perm_insertionSort _ _).nodup_iff.2 (List.nodup_dedup l)

theorem npUniqueIndex_perm (l : List L) : (npUniqueIndex l).Perm (firsts l) := by
  apply (List.perm_ext_iff_of_nodup ?_ ?_).2
  · intro j
    unfold npUniqueIndex firsts
    simp only [List.mem_map, List.mem_filter, List.mem_range, decide_eq_true_eq, npUnique_mem]
    constructor
    · rintro ⟨x, hx, rfl⟩
      have hlt := List.idxOf_lt_length_iff.2 hx
      refine ⟨hlt, x, ?_, rfl⟩
      rw [List.getElem?_eq_getElem hlt, List.getElem_idxOf hlt]
      simp
    · rintro ⟨_, x, hx, he⟩
      exact ⟨x, List.mem_of_getElem? hx, he⟩
  · unfold npUniqueIndex
    refine (List.nodup_map_iff_inj_on (npUnique_nodup l)).2 ?_
    intro x hx y hy hxy
    exact (List.idxOf_inj ((npUnique_mem l x).1 hx)).1 hxy
  · exact List.nodup_range.filter _

theorem range_filter_sorted (n : ℕ) (p : ℕ → Bool) : ((List.range n).filter p).Pairwise (· ≤ ·) :=
  List.Pairwise.filter _ (List.pairwise_lt_range.imp le_of_lt)

theorem npWhereEq_eq (labels : List L) {i : ℕ} (hi : i < (npUnique labels).length) : npWhereEq (npUniqueInverse labels) i = rowsWith labels ((npUnique labels)[i]) := by
  unfold npWhereEq rowsWith npUniqueInverse
  rw [List.length_map]
  apply List.filter_congr
  intro j hj
  rw [List.mem_range] at hj
  rw [decide_eq_decide, List.getD_eq_getElem _ _ (by simpa using hj), List.getElem_map, List.getElem?_eq_getElem hj, Option.some.injEq]
  have hmem : labels[j] ∈ npUnique labels := (npUnique_mem _ _).2 (List.getElem_mem hj)
  constructor
  · intro h
    have hlt := List.idxOf_lt_length_iff.2 hmem
    have := List.getElem_idxOf hlt
    rw [← this]
    congr 1
  · intro h
    rw [h]
    exact (npUnique_nodup labels).idxOf_getElem i hi

/-- The groups in the order of first appearance. -/
theorem setGroups_eq (labels : List L) : setGroups labels = (firsts labels).map (fun j => (List.range labels.length).filter (fun i => decide (labels[i]? = labels[j]?))) := by
  have h1 := npArgsort_map_eq (npUniqueIndex_perm labels) (range_filter_sorted _ _)
  unfold setGroups
  rw [← h1, List.map_map]
  apply List.map_congr_left
  intro i hi
  have hlt : i < (npUnique labels).length := by
    have := (npArgsort_perm _).mem_iff.1 hi
    simpa [npUniqueIndex] using this
  rw [npWhereEq_eq labels hlt]
  unfold rowsWith
  apply List.filter_congr
  intro j hj
  rw [decide_eq_decide]
  have hx : (npUnique labels)[i] ∈ labels := (npUnique_mem _ _).1 (List.getElem_mem hlt)
  have hlt2 := List.idxOf_lt_length_iff.2 hx
  have : labels[(npUniqueIndex labels).getD i 0]? = some (npUnique labels)[i] := by
    rw [List.getD_eq_getElem _ _ (by simpa [npUniqueIndex] using hlt)]
    simp only [npUniqueIndex, List.getElem_map]
    rw [List.getElem?_eq_getElem hlt2, List.getElem_idxOf hlt2]
  simp only
  rw [this]

theorem setGroups_flatten_perm (labels : List L) : (setGroups labels).flatten.Perm (List.range labels.length) := by
  rw [setGroups_eq]
  apply (List.perm_ext_iff_of_nodup ?_ List.nodup_range).2
  · intro i
    simp only [List.mem_flatten, List.mem_map]
    constructor
    · rintro ⟨g, ⟨j, _, rfl⟩, hi⟩
      exact (List.mem_filter.1 hi).1
    · intro hi
      rw [List.mem_range] at hi
      have hmem : labels[i] ∈ labels := List.getElem_mem hi
      have hlt := List.idxOf_lt_length_iff.2 hmem
      refine ⟨_, ⟨labels.idxOf labels[i], ?_, rfl⟩, ?_⟩
      · unfold firsts
        simp only [List.mem_filter, List.mem_range, decide_eq_true_eq]
        refine ⟨hlt, labels[i], ?_, rfl⟩
        rw [List.getElem?_eq_getElem hlt, List.getElem_idxOf hlt]
        simp
      · simp only [List.mem_filter, List.mem_range, decide_eq_true_eq]
        refine ⟨hi, ?_⟩
        rw [List.getElem?_eq_getElem hlt, List.getElem_idxOf hlt, List.getElem?_eq_getElem hi]
  · rw [List.nodup_flatten]
    constructor
    · intro g hg
      obtain ⟨j, _, rfl⟩ := List.mem_map.1 hg
      exact List.nodup_range.filter _
    · rw [List.pairwise_map]
      have hnd : (firsts labels).Nodup := List.nodup_range.filter _
      refine List.Pairwise.imp_of_mem ?_ hnd
      intro a b ha hb hne i hia hib
      simp only [List.mem_filter, List.mem_range, decide_eq_true_eq] at hia hib
      unfold firsts at ha hb
      simp only [List.mem_filter, List.mem_range, decide_eq_true_eq] at ha hb
      obtain ⟨_, x, hx, ha⟩ := ha
      obtain ⟨_, y, hy, hb⟩ := hb
      have : some x = some y := by
        rw [← Option.mem_def.1 hx, ← Option.mem_def.1 hy, ← hia.2, ← hib.2]
      cases this
      exact hne (ha.symm.trans hb)

/-- Undoing a permutation: if `J` is a permutation of `0..n-1`, then taking at `argsort J` puts the `q`-th entry at position `J[q]`. -/
theorem unsort_spec {β : Type*} [Inhabited β] {J : List ℕ} {n : ℕ} (hJ : J.Perm (List.range n)) {res : List β} (hlen : res.length = n) :
    J.map (fun j => ((npArgsort J).map (fun i => res.getD i default)).getD j default) = res := by
  have hJl : J.length = n := by simpa using hJ.length_eq
  have hp := npArgsort_perm J
  have hpl : (npArgsort J).length = n := by simpa [hJl] using hp.length_eq
  have hs := npArgsort_map_eq hJ (List.pairwise_lt_range.imp le_of_lt)
  have hJnd : J.Nodup := hJ.nodup_iff.2 List.nodup_range
  apply List.ext_getElem
  · simp [hJl, hlen]
  · intro q h1 h2
    rw [List.getElem_map]
    have hq : q < J.length := by simpa using h1
    have hv : J[q] < n := by
      have := hJ.mem_iff.1 (List.getElem_mem hq)
      simpa using this
    rw [List.getD_eq_getElem _ _ (by simpa [hpl] using hv), List.getElem_map]
    have hpv : (npArgsort J)[J[q]]'(by omega) < J.length := by
      have := hp.mem_iff.1 (List.getElem_mem (show J[q] < (npArgsort J).length by omega))
      simpa using this
    have e : J[(npArgsort J)[J[q]]'(by omega)] = J[q] := by
      have := congrArg (fun l => l.getD J[q] 0) hs
      rw [List.getD_eq_getElem _ _ (by simpa [hpl] using hv), List.getElem_map, List.getD_eq_getElem _ _ hpv,
        List.getD_eq_getElem _ _ (by simpa using hv), List.getElem_range] at this
      exact this
    have e' : (npArgsort J)[J[q]]'(by omega) = q := (hJnd.getElem_inj_iff).1 e
    rw [e', List.getD_eq_getElem _ _ h2]

theorem flatten_split {γ : Type*} (r : ℕ → γ) (F : List ℕ → List γ) (gs : List (List ℕ)) (hlen : ∀ g ∈ gs, (F g).length = g.length)
    (h : gs.flatten.map r = (gs.map F).flatten) : ∀ g ∈ gs, g.map r = F g := by
  induction gs with
  | nil => simp
  | cons a gs ih =>
    rw [List.flatten_cons, List.map_append, List.map_cons, List.flatten_cons] at h
    obtain ⟨h1, h2⟩ := List.append_inj h (by simp [hlen a (by simp)])
    intro g hg
    rcases List.mem_cons.1 hg with rfl | hg
    · exact h1
    · exact ih (fun g hg => hlen g (by simp [hg])) h2 g hg

theorem flatten_length {γ : Type*} (F : List ℕ → List γ) (gs : List (List ℕ)) (hlen : ∀ g ∈ gs, (F g).length = g.length) :
    (gs.map F).flatten.length = gs.flatten.length := by
  induction gs with
  | nil => rfl
  | cons a gs ih =>
    rw [List.map_cons, List.flatten_cons, List.flatten_cons, List.length_append, List.length_append, hlen a (by simp), ih (fun g hg => hlen g (by simp [hg]))]

theorem rowsWith_mem_setGroups (labels : List L) {x : L} (hx : x ∈ labels) : rowsWith labels x ∈ setGroups labels := by
  rw [setGroups_eq, List.mem_map]
  have hlt := List.idxOf_lt_length_iff.2 hx
  have e : labels[labels.idxOf x]? = some x := by rw [List.getElem?_eq_getElem hlt, List.getElem_idxOf hlt]
  refine ⟨labels.idxOf x, ?_, ?_⟩
  · unfold firsts
    simp only [List.mem_filter, List.mem_range, decide_eq_true_eq]
    exact ⟨hlt, x, by rw [e]; simp, rfl⟩
  · rw [e]; rfl

end

end Moo
