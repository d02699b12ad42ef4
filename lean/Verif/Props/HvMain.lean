import Verif.Model.HvMain
import Verif.Spec.HvMain
import Verif.Lemmas.CliExample
import Verif.Props.HvShift
import Verif.Props.Bounds

/-!
# The program `hv` (C67)
-/

set_option autoImplicit false
set_option linter.unusedSectionVars false

namespace Moo

theorem takeWhile_append_ite {α : Type*} (p : α → Bool) (l m : List α) : (l ++ m).takeWhile p = if l.all p then l ++ m.takeWhile p else l.takeWhile p := by
  induction l with
  | nil => simp
  | cons a l ih =>
    rw [List.cons_append, List.takeWhile_cons, List.takeWhile_cons, ih, List.all_cons]
    cases p a <;> simp
    split_ifs <;> rfl

section

variable {scan : NumScan ℝ} {lib : HvLib ℝ}

theorem setVolume_block {n size : ℕ} {ref : ℕ → ℝ} {data : ℕ → ℝ} {s : List (List ℝ)} {sets : List (List (List ℝ))} (h : HoldsSets data n size (s :: sets)) :
    vol (dominatedRegion n s.length (blockTable data n size) ref) = setVolume n ref s := by
  unfold setVolume
  rw [dominatedRegion_congr n s.length _ _ ref ref h.block (fun _ _ => rfl)]

/-- The loop over the sets. -/
theorem hvSetsLoop_eq (hlib : HvLibOk lib) {shift : Bool} {n : ℕ} (hn : 2 ≤ n ∨ shift = true ∧ 1 ≤ n) (ref : ℕ → ℝ) : ∀ (sets : List (List (List ℝ))) (data : ℕ → ℝ) (size : ℕ), HoldsSets data n size sets →
    hvSetsLoop lib shift n ref data size (cumFrom size (sets.map List.length)) =
      some ((sets.map (setVolume n ref)).all (fun v => decide (v ≠ 0)), (sets.map (setVolume n ref)).takeWhile (fun v => decide (v ≠ 0))) := by
  intro sets
  induction sets with
  | nil => intro data size _; rfl
  | cons s sets ih =>
    intro data size h
    rw [List.map_cons, cumFrom, hvSetsLoop]
    have hsz : size + s.length - size = s.length := by omega
    rw [hsz]
    have hstep : ∃ data', HoldsSets data' n (size + s.length) sets ∧
        (if shift = true then
          some ((fpliHvShift (blockTable data n size) n s.length ref (lib (if n = 2 then blockTable data n size else shiftReference (blockTable data n size) n s.length ref) n s.length)).1,
            writeBlock data n size s.length
              (fpliHvShift (blockTable data n size) n s.length ref (lib (if n = 2 then blockTable data n size else shiftReference (blockTable data n size) n s.length ref) n s.length)).2)
        else (fpliHvCall lib (blockTable data n size) n s.length ref).map fun v => (v, data)) = some (setVolume n ref s, data') := by
      cases shift with
      | true =>
        refine ⟨_, h.tail.writeBlock (t := (fpliHvShift (blockTable data n size) n s.length ref (lib (if n = 2 then blockTable data n size else shiftReference (blockTable data n size) n s.length ref) n s.length)).2) le_rfl, ?_⟩
        rw [if_pos rfl]
        have e : (if n = 2 then blockTable data n size else shiftReference (blockTable data n size) n s.length ref) = shiftSorted (blockTable data n size) n s.length ref := by
          split_ifs with h2
          · funext i k; unfold shiftSorted; rw [if_pos h2]
          · funext i k; unfold shiftSorted shiftReference; rw [if_neg h2]
        rw [e, (C66_hv_shift n s.length (by omega) (blockTable data n size) ref _ (hlib _ n s.length).1 (hlib _ n s.length).2).1, setVolume_block h]
      | false =>
        refine ⟨data, h.tail, ?_⟩
        have h2 : 2 ≤ n := by rcases hn with h | h; · exact h
                              · simp at h
        rw [if_neg (by simp), fpliHvCall, if_neg (by omega), fpliHv_vol hlib _ n _ h2, setVolume_block h]
        rfl
    obtain ⟨data', hd', hstep⟩ := hstep
    rw [hstep]
    dsimp only
    by_cases hv : setVolume n ref s = 0
    · rw [if_pos hv]
      simp [hv]
    · rw [if_neg hv, ih data' _ hd']
      simp [hv]

/-- One file. -/
theorem hvFile_eq (hs : ScanOk scan) (hlib : HvLibOk lib) {o : HvOpts} {n nobj : ℕ} (hn : 2 ≤ n ∨ o.shift = true ∧ 1 ≤ n) (hnobj : nobj = 0 ∨ nobj = n)
    {reference : Option (ℕ → ℝ)} {bounds : Option ((ℕ → ℝ) × (ℕ → ℝ))} {text : List Char} {sets : List (List (List ℝ))} (h : TextSets scan text n sets) {ref : ℕ → ℝ}
    (href : ∀ k < n, ref k = (reference.getD (hvDefaultRef (bounds.getD
      (dataBoundsHv n sets.flatten.length (blockTable (fun j => sets.flatten.flatten.getD j 0) n 0) none none)))) k) :
    hvFile scan lib o reference bounds nobj text =
      some (((if o.union then [sets.flatten] else sets).map (setVolume n ref)).all (fun v => decide (v ≠ 0)),
        ((if o.union then [sets.flatten] else sets).map (setVolume n ref)).takeWhile (fun v => decide (v ≠ 0)), n) := by
  obtain ⟨_, hne, _, hlen⟩ := h.shape
  have hH := holdsSets_flatten hlen
  have hlast : (cumFrom 0 (sets.map List.length)).getLastD 0 = sets.flatten.length := by
    rw [getLastD_cumFrom _ _ (by simpa using hne), List.length_flatten, Nat.zero_add]
  unfold hvFile
  rw [readFile_ok hs h hnobj]
  dsimp only
  rw [hlast]
  have hcum : (if o.union = true then [sets.flatten.length] else cumFrom 0 (sets.map List.length)) = cumFrom 0 ((if o.union then [sets.flatten] else sets).map List.length) := by
    split_ifs
    · simp [cumFrom]
    · rfl
  have hl2 : (if o.union = true then [sets.flatten.length] else cumFrom 0 (sets.map List.length)).getLastD 0 = sets.flatten.length := by
    split_ifs
    · rfl
    · exact hlast
  rw [hl2, hcum, hvSetsLoop_eq hlib hn]
  · have e : ∀ s, setVolume n (reference.getD (hvDefaultRef (bounds.getD
      (dataBoundsHv n sets.flatten.length (blockTable (fun j => sets.flatten.flatten.getD j 0) n 0) none none)))) s = setVolume n ref s := by
      intro s
      unfold setVolume
      rw [dominatedRegion_congr n s.length _ _ _ ref (fun _ _ _ _ => rfl) (fun k hk => (href k hk).symm)]
    rw [funext e]
  · split_ifs
    · exact hH.union
    · exact hH

/-- The files, with the same reference point for all. -/
theorem hvFiles_eq (hs : ScanOk scan) (hlib : HvLibOk lib) {o : HvOpts} {n : ℕ} (hn : 2 ≤ n ∨ o.shift = true ∧ 1 ≤ n)
    {reference : Option (ℕ → ℝ)} {bounds : Option ((ℕ → ℝ) × (ℕ → ℝ))} {ref : ℕ → ℝ} :
    ∀ {texts : List (List Char)} {files : List (List (List (List ℝ)))} (_ : List.Forall₂ (fun s sets => TextSets scan s n sets) texts files)
    (_ : ∀ sets ∈ files, ∀ k < n, ref k = (reference.getD (hvDefaultRef (bounds.getD
      (dataBoundsHv n sets.flatten.length (blockTable (fun j => sets.flatten.flatten.getD j 0) n 0) none none)))) k) (nobj k : ℕ), nobj = 0 ∨ nobj = n →
    ∀ rest, hvFiles scan lib o reference bounds nobj k (texts ++ rest) =
      if (hvVolumes o.union o.suffix n ref k files).all (fun v => decide (v.2 ≠ 0)) then
        match hvFiles scan lib o reference bounds (if files = [] then nobj else n) (k + files.length) rest with
        | .undefined => .undefined
        | .exit st w => .exit st (hvVolumes o.union o.suffix n ref k files ++ w)
      else .exit 1 ((hvVolumes o.union o.suffix n ref k files).takeWhile (fun v => decide (v.2 ≠ 0))) := by
  intro texts files h
  induction h with
  | nil =>
    intro _ nobj k _ rest
    simp only [List.nil_append, hvVolumes, List.all_nil, if_true, List.length_nil, Nat.add_zero]
    cases hvFiles scan lib o reference bounds nobj k rest <;> rfl
  | @cons text sets texts files h1 _ ih =>
    intro href nobj k hnobj rest
    rw [List.cons_append, hvFiles, hvFile_eq hs hlib hn hnobj h1 (href sets (by simp))]
    dsimp only
    rw [hvVolumes, List.all_append, takeWhile_append_ite]
    generalize hd : (if o.suffix = true then some k else none) = dest
    have hall : ∀ l : List (List (List ℝ)), (l.map fun s => (dest, setVolume n ref s)).all (fun v => decide (v.2 ≠ 0)) = (l.map (setVolume n ref)).all (fun v => decide (v ≠ 0)) := by
      intro l; simp [List.all_map, Function.comp_def]
    have htw : ∀ l : List (List (List ℝ)), (l.map fun s => (dest, setVolume n ref s)).takeWhile (fun v => decide (v.2 ≠ 0)) =
        ((l.map (setVolume n ref)).takeWhile (fun v => decide (v ≠ 0))).map fun v => (dest, v) := by
      intro l
      induction l with
      | nil => rfl
      | cons a l ih => simp only [List.map_cons, List.takeWhile_cons, ih]; split_ifs <;> rfl
    rw [hall, htw]
    generalize (if o.union then [sets.flatten] else sets) = cur
    by_cases hg : (cur.map (setVolume n ref)).all (fun v => decide (v ≠ 0)) = true
    · rw [if_pos hg, hg, Bool.true_and, if_pos rfl, ih (fun s hs => href s (by simp [hs])) n (k + 1) (Or.inr rfl) rest]
      have hn' : (if files = [] then n else n) = n := by simp
      rw [hn', if_neg (by simp : ¬ (sets :: files = [])), List.length_cons, show k + (files.length + 1) = k + 1 + files.length by omega]
      have hfull : ∀ l : List (List (List ℝ)), (l.map (setVolume n ref)).all (fun v => decide (v ≠ 0)) = true →
          ((l.map (setVolume n ref)).takeWhile (fun v => decide (v ≠ 0))).map (fun v => (dest, v)) = l.map fun s => (dest, setVolume n ref s) := by
        intro l hl
        rw [List.takeWhile_eq_self_iff.2 (List.all_eq_true.1 hl), List.map_map]
        rfl
      rw [hfull _ hg]
      split_ifs with ha
      · cases hvFiles scan lib o reference bounds n (k + 1 + files.length) rest with
        | undefined => rfl
        | exit st w => simp
      · rfl
    · have hg' := Bool.eq_false_iff.2 hg
      simp only [hg', Bool.false_and, Bool.false_eq_true, if_false]

/-! ### The bounds -/

/-- `mm` are the bounds of all points of these files. -/
def FileBounds (n : ℕ) (files : List (List (List (List ℝ)))) (mm : (ℕ → ℝ) × (ℕ → ℝ)) : Prop :=
  ∀ k < n, IsLeast (objectiveValues files k) (mm.1 k) ∧ IsGreatest (objectiveValues files k) (mm.2 k)

theorem FileBounds.ref {n : ℕ} {files : List (List (List (List ℝ)))} {mm : (ℕ → ℝ) × (ℕ → ℝ)} (h : FileBounds n files mm) {ref : ℕ → ℝ}
    (hr : ∀ k < n, ∃ m M, IsLeast (objectiveValues files k) m ∧ IsGreatest (objectiveValues files k) M ∧ ref k = M + (M - m) / 10) : ∀ k < n, ref k = hvDefaultRef mm k := by
  intro k hk
  obtain ⟨m, M, h1, h2, h3⟩ := hr k hk
  rw [h3, h1.unique (h k hk).1, h2.unique (h k hk).2, hvDefaultRef]
  ring

theorem blockTable_flatten {n : ℕ} {sets : List (List (List ℝ))} (hlen : ∀ t ∈ sets, ∀ r ∈ t, r.length = n) :
    ∀ i < sets.flatten.length, ∀ k < n, blockTable (fun j => sets.flatten.flatten.getD j 0) n 0 i k = rowsTable sets.flatten i k :=
  (holdsSets_flatten hlen).union.block

theorem mem_objectiveValues_one {n : ℕ} {sets : List (List (List ℝ))} (hlen : ∀ t ∈ sets, ∀ r ∈ t, r.length = n) {k : ℕ} (hk : k < n) (x : ℝ) :
    x ∈ objectiveValues [sets] k ↔ ∃ i < sets.flatten.length, blockTable (fun j => sets.flatten.flatten.getD j 0) n 0 i k = x := by
  constructor
  · rintro ⟨_, h0, s, h1, r, h2, rfl⟩
    rw [List.mem_singleton.1 h0] at h1
    obtain ⟨i, hi, rfl⟩ := List.getElem_of_mem (List.mem_flatten.2 ⟨s, h1, h2⟩)
    refine ⟨i, hi, ?_⟩
    rw [blockTable_flatten hlen i hi k hk, rowsTable, List.getD_eq_getElem _ _ hi]
  · rintro ⟨i, hi, rfl⟩
    obtain ⟨s, h1, h2⟩ := List.mem_flatten.1 (List.getElem_mem hi)
    refine ⟨sets, by simp, s, h1, _, h2, ?_⟩
    rw [blockTable_flatten hlen i hi k hk, rowsTable, List.getD_eq_getElem _ _ hi]

theorem flatten_pos {scan : NumScan ℝ} {s : List Char} {n : ℕ} {sets : List (List (List ℝ))} (h : TextSets scan s n sets) : 0 < sets.flatten.length := by
  obtain ⟨_, hne, hne', _⟩ := h.shape
  obtain ⟨t, sets', rfl⟩ := List.exists_cons_of_ne_nil hne
  have := List.length_pos_iff.2 (hne' t (by simp))
  simp only [List.flatten_cons, List.length_append]
  omega

theorem fileBounds_one {s : List Char} {n : ℕ} {sets : List (List (List ℝ))} (h : TextSets scan s n sets) :
    FileBounds n [sets] (dataBoundsHv n sets.flatten.length (blockTable (fun j => sets.flatten.flatten.getD j 0) n 0) none none) := by
  obtain ⟨_, _, _, hlen⟩ := h.shape
  intro k hk
  obtain ⟨⟨⟨r, hr, he⟩, h2⟩, ⟨r', hr', he'⟩, h4⟩ := C38_data_bounds_hv (data := blockTable (fun j => sets.flatten.flatten.getD j 0) n 0) (flatten_pos h) k hk
  refine ⟨⟨(mem_objectiveValues_one hlen hk _).2 ⟨r, hr, he⟩, ?_⟩, ⟨(mem_objectiveValues_one hlen hk _).2 ⟨r', hr', he'⟩, ?_⟩⟩
  · intro x hx
    obtain ⟨i, hi, rfl⟩ := (mem_objectiveValues_one hlen hk _).1 hx
    exact h2 i hi
  · intro x hx
    obtain ⟨i, hi, rfl⟩ := (mem_objectiveValues_one hlen hk _).1 hx
    exact h4 i hi

theorem objectiveValues_append (f g : List (List (List (List ℝ)))) (k : ℕ) : objectiveValues (f ++ g) k = objectiveValues f k ∪ objectiveValues g k := by
  ext x
  simp only [objectiveValues, Set.mem_union, Set.mem_ofPred_eq, List.mem_append]
  constructor
  · rintro ⟨s, h | h, r⟩
    · exact Or.inl ⟨s, h, r⟩
    · exact Or.inr ⟨s, h, r⟩
  · rintro (⟨s, h, r⟩ | ⟨s, h, r⟩)
    · exact ⟨s, Or.inl h, r⟩
    · exact ⟨s, Or.inr h, r⟩

theorem fileBounds_more {s : List Char} {n : ℕ} {sets : List (List (List ℝ))} (h : TextSets scan s n sets) {files : List (List (List (List ℝ)))} {mm : (ℕ → ℝ) × (ℕ → ℝ)}
    (hb : FileBounds n files mm) :
    FileBounds n (files ++ [sets]) (dataBoundsHv n sets.flatten.length (blockTable (fun j => sets.flatten.flatten.getD j 0) n 0) (some mm.1) (some mm.2)) := by
  obtain ⟨_, _, _, hlen⟩ := h.shape
  intro k hk
  obtain ⟨a1, a2, a3⟩ := C38_data_bounds_accumulate (inf := 0) (negInf := 0) (rows := sets.flatten.length) (data := blockTable (fun j => sets.flatten.flatten.getD j 0) n 0) (m := mm.1) (M := mm.2) k hk
  rw [← a3] at a1 a2
  obtain ⟨⟨b1, b2⟩, b3, b4⟩ := hb k hk
  obtain ⟨⟨c1, c2⟩, c3, c4⟩ := fileBounds_one h k hk
  obtain ⟨hmin, hmax⟩ : (dataBoundsHv n sets.flatten.length (blockTable (fun j => sets.flatten.flatten.getD j 0) n 0) (some mm.1) (some mm.2)).1 k =
      min (mm.1 k) ((dataBoundsHv n sets.flatten.length (blockTable (fun j => sets.flatten.flatten.getD j 0) n 0) none none).1 k) ∧
      (dataBoundsHv n sets.flatten.length (blockTable (fun j => sets.flatten.flatten.getD j 0) n 0) (some mm.1) (some mm.2)).2 k =
      max (mm.2 k) ((dataBoundsHv n sets.flatten.length (blockTable (fun j => sets.flatten.flatten.getD j 0) n 0) none none).2 k) := by
    constructor
    · apply eq_of_forall_le_iff
      intro v
      rw [a1, le_min_iff]
      refine and_congr_right (fun _ => ⟨fun hv => ?_, fun hv r hr => hv.trans (c2 ((mem_objectiveValues_one hlen hk _).2 ⟨r, hr, rfl⟩))⟩)
      obtain ⟨r, hr, he⟩ := (mem_objectiveValues_one hlen hk _).1 c1
      rw [← he]; exact hv r hr
    · apply eq_of_forall_ge_iff
      intro v
      rw [a2, max_le_iff]
      refine and_congr_right (fun _ => ⟨fun hv => ?_, fun hv r hr => (c4 ((mem_objectiveValues_one hlen hk _).2 ⟨r, hr, rfl⟩)).trans hv⟩)
      obtain ⟨r, hr, he⟩ := (mem_objectiveValues_one hlen hk _).1 c3
      rw [← he]; exact hv r hr
  rw [hmin, hmax, objectiveValues_append]
  exact ⟨IsLeast.union ⟨b1, b2⟩ ⟨c1, c2⟩, IsGreatest.union ⟨b3, b4⟩ ⟨c3, c4⟩⟩

/-- Reading the files for their bounds. -/
theorem fileRanges_some (hs : ScanOk scan) {n : ℕ} : ∀ {texts : List (List Char)} {files : List (List (List (List ℝ)))} (_ : List.Forall₂ (fun s sets => TextSets scan s n sets) texts files)
    (seen : List (List (List (List ℝ)))) (mm : (ℕ → ℝ) × (ℕ → ℝ)), FileBounds n seen mm → ∀ rest,
    ∃ mm', FileBounds n (seen ++ files) mm' ∧ fileRanges scan n (some mm) (texts ++ rest) = fileRanges scan n (some mm') rest := by
  intro texts files h
  induction h with
  | nil => intro seen mm hb rest; exact ⟨mm, by simpa using hb, rfl⟩
  | @cons text sets texts files h1 _ ih =>
    intro seen mm hb rest
    obtain ⟨_, hne, _, hlen⟩ := h1.shape
    have hlast : (cumFrom 0 (sets.map List.length)).getLastD 0 = sets.flatten.length := by
      rw [getLastD_cumFrom _ _ (by simpa using hne), List.length_flatten, Nat.zero_add]
    obtain ⟨mm', g1, g2⟩ := ih _ _ (fileBounds_more h1 hb) rest
    refine ⟨mm', by simpa using g1, ?_⟩
    rw [List.cons_append, fileRanges, readFile_ok hs h1 (Or.inr rfl)]
    dsimp only [Option.map_some]
    rw [hlast, g2]

theorem fileRanges_none (hs : ScanOk scan) {n : ℕ} {text : List Char} {sets : List (List (List ℝ))} (h1 : TextSets scan text n sets) {texts : List (List Char)} {files : List (List (List (List ℝ)))}
    (h : List.Forall₂ (fun s sets => TextSets scan s n sets) texts files) (rest : List (List Char)) :
    ∃ mm', FileBounds n (sets :: files) mm' ∧ fileRanges scan 0 none (text :: texts ++ rest) = fileRanges scan n (some mm') rest := by
  obtain ⟨_, hne, _, hlen⟩ := h1.shape
  have hlast : (cumFrom 0 (sets.map List.length)).getLastD 0 = sets.flatten.length := by
    rw [getLastD_cumFrom _ _ (by simpa using hne), List.length_flatten, Nat.zero_add]
  obtain ⟨mm', g1, g2⟩ := fileRanges_some hs h _ _ (fileBounds_one h1) rest
  refine ⟨mm', g1, ?_⟩
  rw [List.cons_append, fileRanges, readFile_ok hs h1 (Or.inl rfl)]
  dsimp only [Option.map_none]
  rw [hlast, g2]

/-! ### The program -/

/-- What the program has to do with these volumes: a volume 0 is an error. -/
noncomputable def hvOutcome (vols : List (Option ℕ × ℝ)) : ProgOut (Option ℕ × ℝ) :=
  .exit (if ∃ v ∈ vols, v.2 = 0 then 1 else 0) (vols.takeWhile fun v => decide (v.2 ≠ 0))

theorem hvOutcome_eq (vols : List (Option ℕ × ℝ)) :
    (if vols.all (fun v => decide (v.2 ≠ 0)) then (ProgOut.exit 0 (vols ++ []) : ProgOut (Option ℕ × ℝ)) else .exit 1 (vols.takeWhile fun v => decide (v.2 ≠ 0))) = hvOutcome vols := by
  unfold hvOutcome
  by_cases h : vols.all (fun v => decide (v.2 ≠ 0)) = true
  · rw [if_pos h, List.takeWhile_eq_self_iff.2 (List.all_eq_true.1 h), List.append_nil, if_neg]
    rintro ⟨v, hv, h0⟩
    have := List.all_eq_true.1 h v hv
    simp [h0] at this
  · rw [if_neg h, if_pos]
    by_contra hno
    apply h
    rw [List.all_eq_true]
    intro v hv
    exact decide_eq_true (fun h0 => hno ⟨v, hv, h0⟩)

/-- The files that are read: without file names, the standard input. -/
def hvInputs (stdin : List Char) (files : List (List Char)) : List (List Char) := if files = [] then [stdin] else files

/-- **C67 (`hv`)**: if every input is a text of data sets, all with the same number `n` of objectives (`n ≥ 2`, or `n ≥ 1` with `--shift`), and the argument of `-r`, if there is one, has `n`
numbers, then `hv` writes the hypervolumes of the data sets (with `-u`: of the union of the sets of each file), in their order, one after the other, with respect to that reference point, and exits
with success; except that it stops with a failure at the first volume 0.  The volume is the Lebesgue measure of the dominated region. -/
theorem C67_hv (hs : ScanOk scan) (hlib : HvLibOk lib) (o : HvOpts) (stdin : List Char) (files : List (List Char)) (n : ℕ) (hn : 2 ≤ n ∨ o.shift = true ∧ 1 ≤ n)
    (sets : List (List (List (List ℝ)))) (h : List.Forall₂ (fun s sets => TextSets scan s n sets) (hvInputs stdin files) sets)
    (ref : ℕ → ℝ) (href : IsHvReference scan o.reference n sets ref) :
    hvMain scan lib o stdin files = hvOutcome (hvVolumes o.union (o.suffix && !files.isEmpty) n ref 0 sets) := by
  -- all the calls of `hvFiles` that occur
  have hend : ∀ (o' : HvOpts) (reference : Option (ℕ → ℝ)) (bounds : Option ((ℕ → ℝ) × (ℕ → ℝ))) (nobj : ℕ), o'.union = o.union → o'.shift = o.shift → nobj = 0 ∨ nobj = n →
      (∀ t ∈ sets, ∀ k < n, ref k = (reference.getD (hvDefaultRef (bounds.getD
        (dataBoundsHv n t.flatten.length (blockTable (fun j => t.flatten.flatten.getD j 0) n 0) none none)))) k) →
      hvFiles scan lib o' reference bounds nobj 0 (hvInputs stdin files) = hvOutcome (hvVolumes o.union o'.suffix n ref 0 sets) := by
    intro o' reference bounds nobj hu hsh hnobj hr
    have := hvFiles_eq (o := o') hs hlib (n := n) (by rw [hsh]; exact hn) h hr nobj 0 hnobj []
    rw [List.append_nil] at this
    rw [this, ← hvOutcome_eq, hu]
    simp only [hvFiles]
  unfold hvMain
  cases hr : o.reference with
  | some str =>
    rw [hr] at href
    obtain ⟨vs, h1, h2, h3⟩ := href
    have hne : vs ≠ [] := by rintro rfl; simp at h2; omega
    dsimp only
    rw [readPoint_ok hs h1 hne]
    dsimp only [Option.map_some]
    rw [Option.getD_some]
    cases files with
    | nil =>
      have := hend { o with suffix := false } (some fun k => vs.getD k 0) none vs.length rfl rfl (Or.inr h2) (fun _ _ k hk => h3 k hk)
      simpa [hvInputs, hr] using this
    | cons f files =>
      have := hend o (some fun k => vs.getD k 0) none vs.length rfl rfl (Or.inr h2) (fun _ _ k hk => h3 k hk)
      cases files with
      | nil => simpa [hvInputs] using this
      | cons g files => simpa [hvInputs] using this
  | none =>
    rw [hr] at href
    dsimp only [Option.map_none]
    rw [Option.getD_none]
    have hone : ∀ (text : List Char), hvInputs stdin files = [text] → ∀ t ∈ sets, ∀ k < n, ref k = ((none : Option (ℕ → ℝ)).getD (hvDefaultRef ((none : Option ((ℕ → ℝ) × (ℕ → ℝ))).getD
        (dataBoundsHv n t.flatten.length (blockTable (fun j => t.flatten.flatten.getD j 0) n 0) none none)))) k := by
      intro text ht t hts
      rw [ht] at h
      cases h with
      | cons h1 h2 =>
        cases h2
        rw [List.mem_singleton] at hts
        subst hts
        exact (fileBounds_one h1).ref href
    cases files with
    | nil =>
      have := hend { o with suffix := false } none none 0 rfl rfl (Or.inl rfl) (hone stdin rfl)
      simpa [hvInputs, hr] using this
    | cons f files =>
      cases files with
      | nil =>
        have := hend o none none 0 rfl rfl (Or.inl rfl) (hone f rfl)
        simpa [hvInputs] using this
      | cons g files =>
        dsimp only
        rw [if_neg (by simp)]
        have hin : hvInputs stdin (f :: g :: files) = f :: g :: files := rfl
        have h' := h
        rw [hin] at h'
        cases h' with
        | @cons _ t _ ts h1 h2 =>
          obtain ⟨mm, g1, g2⟩ := fileRanges_none hs h1 h2 []
          rw [List.append_nil] at g2
          rw [g2]
          dsimp only [fileRanges]
          have := hend o none (some mm) n rfl rfl (Or.inr rfl) (fun _ _ k hk => g1.ref href k hk)
          simpa [hvInputs] using this

/-- **C67 (an objective without range)**: without `-r`, if some objective has the same value in all points of all inputs, then `hv` writes nothing and fails: the default reference point is not worse than the
points in that objective. -/
theorem C67_hv_constant_objective (hs : ScanOk scan) (hlib : HvLibOk lib) (o : HvOpts) (ho : o.reference = none) (stdin : List Char) (files : List (List Char)) (n : ℕ)
    (hn : 2 ≤ n ∨ o.shift = true ∧ 1 ≤ n) (sets : List (List (List (List ℝ)))) (h : List.Forall₂ (fun s sets => TextSets scan s n sets) (hvInputs stdin files) sets)
    (k : ℕ) (hk : k < n) (c : ℝ) (hc : ∀ x ∈ objectiveValues sets k, x = c) :
    hvMain scan lib o stdin files = .exit 1 [] := by
  have hbounds : ∀ texts sets, List.Forall₂ (fun s sets => TextSets scan s n sets) texts sets → texts ≠ [] → ∃ mm, FileBounds n sets mm := by
    intro texts sets h hne
    cases h with
    | nil => exact absurd rfl hne
    | cons h1 h2 =>
      obtain ⟨mm, g, _⟩ := fileRanges_none hs h1 h2 []
      exact ⟨mm, g⟩
  obtain ⟨mm, hmm⟩ := hbounds _ _ h (by unfold hvInputs; split_ifs with hf; · simp
                                        exact hf)
  have href : IsHvReference scan o.reference n sets (hvDefaultRef mm) := by
    rw [ho]
    intro j hj
    exact ⟨_, _, (hmm j hj).1, (hmm j hj).2, by rw [hvDefaultRef]; ring⟩
  rw [C67_hv hs hlib o stdin files n hn sets h _ href]
  have hrk : hvDefaultRef mm k = c := by
    rw [hvDefaultRef, hc _ (hmm k hk).1.1, hc _ (hmm k hk).2.1]; ring
  -- every volume is 0
  have hz : ∀ t ∈ sets, ∀ s ∈ (if o.union then [t.flatten] else t), setVolume n (hvDefaultRef mm) s = 0 := by
    intro t ht s hst
    have hsub : ∀ r ∈ s, r.getD k 0 = c := by
      intro r hr
      have : ∃ s' ∈ t, r ∈ s' := by
        split_ifs at hst
        · rw [List.mem_singleton] at hst
          subst hst
          obtain ⟨s', h1, h2⟩ := List.mem_flatten.1 hr
          exact ⟨s', h1, h2⟩
        · exact ⟨s, hst, hr⟩
      obtain ⟨s', h1, h2⟩ := this
      exact hc _ ⟨t, ht, s', h1, r, h2, rfl⟩
    rw [setVolume, vol_dominatedRegion]
    rw [HV_drop [] (by simp), HV_nil]
    intro i hi
    rw [List.mem_range] at hi
    refine Or.inr ⟨k, hk, ?_⟩
    rw [hrk, rowsTable, List.getD_eq_getElem _ _ hi, hsub _ (List.getElem_mem hi)]
  -- and there is one
  have hex : ∃ t ts s ss, sets = t :: ts ∧ (if o.union then [t.flatten] else t) = s :: ss := by
    have hne : hvInputs stdin files ≠ [] := by unfold hvInputs; split_ifs with hf; · simp
                                               exact hf
    generalize hvInputs stdin files = texts at h hne
    cases h with
    | nil => exact absurd rfl hne
    | @cons _ t _ ts h1 h2 =>
      obtain ⟨s, ss, e⟩ := List.exists_cons_of_ne_nil h1.shape.2.1
      split_ifs
      · exact ⟨t, ts, _, [], rfl, rfl⟩
      · exact ⟨t, ts, s, ss, rfl, e⟩
  obtain ⟨t, ts, s, ss, rfl, e⟩ := hex
  have h0 := hz t (by simp) s (by rw [e]; simp)
  unfold hvOutcome
  rw [hvVolumes, e, List.map_cons, List.cons_append, List.takeWhile_cons, if_pos ⟨_, List.mem_cons_self, h0⟩]
  simp [h0]

/-- **C67 (an input that is not a text of data sets)**, with `-r`: the volumes of the inputs before it are written (up to a volume 0), and `hv` fails. -/
theorem C67_hv_unreadable (hs : ScanOk scan) (hlib : HvLibOk lib) (o : HvOpts) (stdin : List Char) (files : List (List Char)) (n : ℕ) (hn : 2 ≤ n ∨ o.shift = true ∧ 1 ≤ n)
    (good : List (List Char)) (bad : List Char) (rest : List (List Char)) (hin : hvInputs stdin files = good ++ bad :: rest)
    (sets : List (List (List (List ℝ)))) (h : List.Forall₂ (fun s sets => TextSets scan s n sets) good sets) (hbad : Unreadable scan bad n)
    (str : List Char) (hstr : o.reference = some str) (ref : ℕ → ℝ) (href : IsHvReference scan (some str) n sets ref) :
    hvMain scan lib o stdin files = .exit 1 ((hvVolumes o.union (o.suffix && !files.isEmpty) n ref 0 sets).takeWhile fun v => decide (v.2 ≠ 0)) := by
  obtain ⟨vs, h1, h2, h3⟩ := href
  have hne : vs ≠ [] := by rintro rfl; simp at h2; omega
  have hend : ∀ (o' : HvOpts), o'.union = o.union → o'.shift = o.shift →
      hvFiles scan lib o' (some fun k => vs.getD k 0) none vs.length 0 (hvInputs stdin files) =
        .exit 1 ((hvVolumes o.union o'.suffix n ref 0 sets).takeWhile fun v => decide (v.2 ≠ 0)) := by
    intro o' hu hsh
    have hb : ∀ k, hvFiles scan lib o' (some fun k => vs.getD k 0) none n k (bad :: rest) = .exit 1 [] := by
      intro k
      rw [hvFiles, hvFile, readFile_err hs hbad]
      rfl
    rw [hin, hvFiles_eq (o := o') hs hlib (n := n) (by rw [hsh]; exact hn) h (fun _ _ k hk => h3 k hk) _ 0 (Or.inr h2) (bad :: rest), h2, ite_self, hb, hu]
    dsimp only
    split_ifs with ha
    · rw [List.takeWhile_eq_self_iff.2 (List.all_eq_true.1 ha)]; simp
    · rfl
  unfold hvMain
  rw [hstr]
  dsimp only
  rw [readPoint_ok hs h1 hne]
  dsimp only [Option.map_some]
  rw [Option.getD_some]
  cases files with
  | nil =>
    have := hend { o with suffix := false } rfl rfl
    simpa [hvInputs, hstr] using this
  | cons f files =>
    have := hend o rfl rfl
    cases files with
    | nil => simpa [hvInputs] using this
    | cons g files => simpa [hvInputs] using this

/-- **C67 (an input that is not a text of data sets)**, without `-r`: nothing is written and `hv` fails.  The inputs before it have `n` objectives; it may have data sets with another number. -/
theorem C67_hv_unreadable_default (hs : ScanOk scan) (o : HvOpts) (ho : o.reference = none) (stdin : List Char) (files : List (List Char)) (n : ℕ)
    (good : List (List Char)) (bad : List Char) (rest : List (List Char)) (hin : hvInputs stdin files = good ++ bad :: rest)
    (sets : List (List (List (List ℝ)))) (h : List.Forall₂ (fun s sets => TextSets scan s n sets) good sets) (hbad : Unreadable scan bad (if good = [] then 0 else n)) :
    hvMain scan lib o stdin files = .exit 1 [] := by
  unfold hvMain
  rw [ho]
  dsimp only [Option.map_none]
  rw [Option.getD_none]
  have hfirst : ∀ (o' : HvOpts) (text : List Char), hvInputs stdin files = [text] → hvFiles scan lib o' none none 0 0 [text] = .exit 1 [] := by
    intro o' text ht
    rw [ht] at hin
    cases good with
    | nil =>
      rw [List.nil_append, List.cons.injEq] at hin
      rw [hin.1, hvFiles, hvFile, readFile_err hs (by simpa using hbad)]
      rfl
    | cons a l => simp at hin
  cases files with
  | nil => exact hfirst _ stdin rfl
  | cons f files =>
    cases files with
    | nil => exact hfirst _ f rfl
    | cons g files =>
      dsimp only
      rw [if_neg (by simp)]
      have hin' : f :: g :: files = good ++ bad :: rest := hin
      rw [hin']
      have : fileRanges scan 0 none (good ++ bad :: rest) = some none := by
        cases h with
        | nil => rw [List.nil_append, fileRanges, readFile_err hs (by simpa using hbad)]
        | cons h1 h2 =>
          obtain ⟨mm, _, g2⟩ := fileRanges_none hs h1 h2 (bad :: rest)
          rw [g2, fileRanges, readFile_err hs (by simpa using hbad)]
      rw [this]

/-- **C67 (an argument of `-r` that is not a point)**: `hv` fails at once. -/
theorem C67_hv_bad_reference (hs : ScanOk scan) (o : HvOpts) (stdin : List Char) (files : List (List Char)) (str : List Char) (hstr : o.reference = some str)
    (hbad : ¬ ∃ vs, vs ≠ [] ∧ NumbersArg scan str vs) : hvMain scan lib o stdin files = .exit 1 [] := by
  unfold hvMain
  rw [hstr]
  dsimp only
  rw [readPoint_err hs hbad]
  rfl

/-- **C67 (one objective)**: without `--shift` a file of one-dimensional points makes `hv` call a function that assumes at least two objectives: the behaviour is undefined. -/
theorem C67_hv_one_objective_undefined (hs : ScanOk scan) (o : HvOpts) (hsh : o.shift = false) (ho : o.reference = none) (stdin file : List Char) (sets : List (List (List ℝ)))
    (h : TextSets scan file 1 sets) : hvMain scan lib o stdin [file] = .undefined := by
  obtain ⟨_, hne, hne', hlen⟩ := h.shape
  have hpos := flatten_pos h
  have key : ∀ (ref : ℕ → ℝ) (data : ℕ → ℝ) (c : ℕ) (cs : List ℕ), 0 < c → hvSetsLoop lib false 1 ref data 0 (c :: cs) = none := by
    intro ref data c cs hc
    rw [hvSetsLoop]
    simp only [Bool.false_eq_true, if_false]
    rw [fpliHvCall, if_pos ⟨by omega, by omega⟩]
    rfl
  unfold hvMain
  rw [ho]
  dsimp only [Option.map_none]
  rw [Option.getD_none, hvFiles, hvFile, readFile_ok hs h (Or.inl rfl)]
  dsimp only
  have hlast : (cumFrom 0 (sets.map List.length)).getLastD 0 = sets.flatten.length := by
    rw [getLastD_cumFrom _ _ (by simpa using hne), List.length_flatten, Nat.zero_add]
  rw [hlast, hsh]
  have hcum : ∃ c cs, 0 < c ∧ (if o.union = true then [sets.flatten.length] else cumFrom 0 (sets.map List.length)) = c :: cs := by
    split_ifs
    · exact ⟨_, _, hpos, rfl⟩
    · obtain ⟨s, ss, rfl⟩ := List.exists_cons_of_ne_nil hne
      exact ⟨s.length, _, List.length_pos_iff.2 (hne' s (by simp)), by rw [List.map_cons, cumFrom, Nat.zero_add]⟩
  obtain ⟨c, cs, hc, e⟩ := hcum
  rw [e, key _ _ _ _ hc]

end

/-! ### The hypotheses can be met -/

/-- The scanner of the examples: decimal integers. -/
noncomputable def scanReal : NumScan ℝ := scanMap (fun z : ℤ => (z : ℝ)) scanInt

/-- Two files, `-r "3 3"` and an output file for each. -/
example : ∃ lib : HvLib ℝ, hvMain scanReal lib ⟨false, false, true, some "3 3".toList⟩ [] ["1 2\n2 1\n\n0 0\n".toList, "# b\n4 1\n".toList] =
    hvOutcome [(some 0, setVolume 2 (fun _ => 3) [[1, 2], [2, 1]]), (some 0, setVolume 2 (fun _ => 3) [[0, 0]]), (some 1, setVolume 2 (fun _ => 3) [[4, 1]])] := by
  obtain ⟨lib, hlib⟩ := exists_hvLib
  refine ⟨lib, ?_⟩
  have h1 : TextSets scanReal "1 2\n2 1\n\n0 0\n".toList 2 _ := (checkText_sound (sets := [[[1, 2], [2, 1]], [[0, 0]]]) (by decide +kernel)).scanMap _
  have h2 : TextSets scanReal "# b\n4 1\n".toList 2 _ := (checkText_sound (sets := [[[4, 1]]]) (by decide +kernel)).scanMap _
  have h3 : NumbersArg scanReal "3 3".toList [3, 3] := by
    have : NumbersArg scanInt "3 3".toList [3, 3] :=
      .cons _ " 3".toList _ _ (by decide +kernel) (.cons _ [] _ _ (by decide +kernel) (.nil _ (by simp)))
    have h := this.scanMap (fun z : ℤ => (z : ℝ))
    simp only [List.map_cons, List.map_nil, Int.cast_ofNat] at h
    exact h
  have := C67_hv (scanMap_ok _ scanInt_ok) hlib ⟨false, false, true, some "3 3".toList⟩ [] ["1 2\n2 1\n\n0 0\n".toList, "# b\n4 1\n".toList] 2 (Or.inl le_rfl) _ (.cons h1 (.cons h2 .nil)) (fun _ => 3)
    ⟨_, h3, rfl, by intro k hk; interval_cases k <;> rfl⟩
  simpa [hvVolumes, scanReal] using this

/-- Over the rational numbers, two objectives: the default reference point of the points (1, 2) and (2, 1) is (2.1, 2.1), and the volume is 0.21; the second set, the point (2, 2), has the volume 0.01. -/
example : (match hvMain (K := ℚ) (scanMap (fun z : ℤ => (z : ℚ)) scanInt) (fun _ _ n => ⟨List.range n, fun _ => [], 0, ⟨fun _ _ => 0, fun _ _ => 0, fun _ => 0, fun _ _ => 0, fun _ _ => 0, fun _ => 0, AvlHeap.empty⟩⟩)
    ⟨false, false, false, none⟩ "1 2\n2 1\n\n2 2\n".toList [] with
    | .exit s w => some (s, w)
    | .undefined => none) = some (0, [(none, 21 / 100), (none, 1 / 100)]) := by decide +kernel

/-- One objective is not supported. -/
example (lib : HvLib ℝ) : hvMain scanReal lib ⟨false, false, false, none⟩ [] ["1\n2\n".toList] = .undefined :=
  C67_hv_one_objective_undefined (scanMap_ok _ scanInt_ok) _ rfl rfl _ _ _ ((checkText_sound (sets := [[[1], [2]]]) (by decide +kernel)).scanMap _)

/-- The second objective has no range. -/
example : ∃ lib : HvLib ℝ, hvMain scanReal lib ⟨false, false, false, none⟩ [] ["1 5\n2 5\n".toList] = .exit 1 [] := by
  obtain ⟨lib, hlib⟩ := exists_hvLib
  refine ⟨lib, C67_hv_constant_objective (scanMap_ok _ scanInt_ok) hlib _ rfl _ _ 2 (Or.inl le_rfl) _
    (.cons ((checkText_sound (sets := [[[1, 5], [2, 5]]]) (by decide +kernel)).scanMap _) .nil) 1 (by omega) 5 ?_⟩
  rintro x ⟨sets, h1, s, h2, r, h3, rfl⟩
  simp only [List.mem_singleton] at h1
  subst h1
  simp only [List.map_cons, List.map_nil, List.mem_singleton] at h2
  subst h2
  simp only [List.mem_cons, List.not_mem_nil, or_false] at h3
  rcases h3 with rfl | rfl <;> simp

end Moo
