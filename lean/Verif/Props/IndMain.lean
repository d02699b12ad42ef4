import Verif.Model.IndMain
import Verif.Spec.IndMain
import Verif.Lemmas.CliExample
import Verif.Props.Epsilon
import Verif.Props.Igd
import Verif.Props.Options
import Verif.Props.HvMain

/-!
# The programs `epsilon` and `igd` (C68)
-/

set_option autoImplicit false
set_option linter.unusedSectionVars false

namespace Moo

theorem mem_destSets {V : Type*} {suffix : Bool} {p : Option ℕ × List (List V)} : ∀ {files : List (List (List (List V)))} {k : ℕ}, p ∈ destSets suffix k files → ∃ sets ∈ files, p.2 ∈ sets := by
  intro files
  induction files with
  | nil => intro k h; simp [destSets] at h
  | cons sets files ih =>
    intro k h
    rw [destSets, List.mem_append] at h
    rcases h with h | h
    · obtain ⟨s, hs, rfl⟩ := List.mem_map.1 h
      exact ⟨sets, by simp, hs⟩
    · obtain ⟨t, h1, h2⟩ := ih h
      exact ⟨t, by simp [h1], h2⟩

theorem destSets_ne {V : Type*} {scan : NumScan V} {n : ℕ} {good : List (List Char)} {sets : List (List (List (List V)))}
    (hf : List.Forall₂ (fun s sets => TextSets scan s n sets) good sets) {suffix : Bool} {p : Option ℕ × List (List V)} (hp : p ∈ destSets suffix 0 sets) :
    0 < p.2.length ∧ ∀ r ∈ p.2, r.length = n := by
  obtain ⟨t, ht, hpt⟩ := mem_destSets hp
  have key : ∀ t ∈ sets, ∃ s, TextSets scan s n t := by
    clear hp ht hpt
    induction hf with
    | nil => intro t ht; simp at ht
    | cons h1 _ ih =>
      intro t ht
      rcases List.mem_cons.1 ht with rfl | ht
      · exact ⟨_, h1⟩
      · exact ih t ht
  obtain ⟨s, hs⟩ := key t ht
  exact ⟨List.length_pos_iff.2 (hs.shape.2.2.1 _ hpt), hs.shape.2.2.2 _ hpt⟩

theorem throughFirst_map {A B : Type*} (f : A → B) (p : B → Prop) (q : A → Prop) [DecidablePred p] [DecidablePred q] (h : ∀ a, p (f a) ↔ q a) (l : List A) :
    throughFirst p (l.map f) = (throughFirst q l).map f := by
  induction l with
  | nil => rfl
  | cons a l ih =>
    rw [List.map_cons, throughFirst, throughFirst, ih]
    by_cases hq : q a
    · rw [if_pos hq, if_pos ((h a).2 hq)]; rfl
    · rw [if_neg hq, if_neg (fun hp => hq ((h a).1 hp))]; rfl

section generic

variable {V W S : Type*}

/-- Values one after the other, until one cannot be computed or is bad: whether the end was reached, and the values. -/
def progress (want : S → Option W) (bad : W → Bool) : List S → Bool × List W
  | [] => (true, [])
  | s :: l =>
    match want s with
    | none => (false, [])
    | some v => if bad v then (false, [v]) else ((progress want bad l).1, v :: (progress want bad l).2)

theorem progress_append (want : S → Option W) (bad : W → Bool) (l m : List S) :
    progress want bad (l ++ m) = if (progress want bad l).1 then ((progress want bad m).1, (progress want bad l).2 ++ (progress want bad m).2) else progress want bad l := by
  induction l with
  | nil => simp [progress]
  | cons s l ih =>
    rw [List.cons_append, progress, progress]
    cases want s with
    | none => simp
    | some v =>
      dsimp only
      by_cases hb : bad v = true
      · simp [hb]
      · simp only [hb, Bool.false_eq_true, if_false, ih]
        split_ifs <;> simp

theorem progress_map {T : Type*} (f : T → S) (want : S → Option W) (bad : W → Bool) (l : List T) : progress want bad (l.map f) = progress (fun t => want (f t)) bad l := by
  induction l with
  | nil => rfl
  | cons s l ih => rw [List.map_cons, progress, progress, ih]

/-- Values with a tag. -/
theorem progress_tag {T : Type*} (tag : T) (want : S → Option W) (bad : W → Bool) (l : List S) :
    progress (fun p : T × S => (want p.2).map fun v => (p.1, v)) (fun p => bad p.2) (l.map fun s => (tag, s)) =
      ((progress want bad l).1, (progress want bad l).2.map fun v => (tag, v)) := by
  induction l with
  | nil => rfl
  | cons s l ih =>
    rw [List.map_cons, progress, progress]
    cases want s with
    | none => rfl
    | some v =>
      dsimp only [Option.map_some]
      rw [ih]
      split_ifs <;> rfl

theorem progress_all {want : S → Option W} {bad : W → Bool} {val : S → W} : ∀ {l : List S}, (∀ s ∈ l, want s = some (val s)) →
    progress want bad l = (decide (¬ ∃ v ∈ l.map val, bad v = true), throughFirst (fun v => bad v = true) (l.map val)) := by
  intro l
  induction l with
  | nil => intro _; simp [progress, throughFirst]
  | cons s l ih =>
    intro h
    rw [progress, h s (by simp), ih (fun s hs => h s (by simp [hs]))]
    dsimp only
    rw [List.map_cons, throughFirst]
    by_cases hb : bad (val s) = true
    · simp [hb]
    · rw [if_neg hb, if_neg hb]
      simp [hb]

variable [Zero V] {scan : NumScan V} {junk : ℕ → ℤ} {ind : Indicator V W} {bad : W → Bool}

theorem indSets_eq {ind1 : (ℕ → ℕ → V) → ℕ → Option W} {n : ℕ} {data : ℕ → V} {want : List (List V) → Option W} : ∀ (sets : List (List (List V))) (size : ℕ), HoldsSets data n size sets →
    (∀ s ∈ sets, ∀ t : ℕ → ℕ → V, (∀ i < s.length, ∀ k < n, t i k = rowsTable s i k) → ind1 t s.length = want s) →
    indSets ind1 bad n data size (cumFrom size (sets.map List.length)) = progress want bad sets := by
  intro sets
  induction sets with
  | nil => intro size _ _; rfl
  | cons s sets ih =>
    intro size h hw
    rw [List.map_cons, cumFrom, indSets, progress]
    rw [show size + s.length - size = s.length by omega, hw s (by simp) _ h.block, ih _ h.tail (fun s hs => hw s (by simp [hs]))]
    rfl

theorem indFile_eq (hs : ScanOk scan) {n nobj : ℕ} (hnobj : nobj = 0 ∨ nobj = n) {minmax : Option (ℕ → ℤ)} {reference : List V × ℕ × ℕ} (hcols : n ≤ reference.2.1)
    {text : List Char} {sets : List (List (List V))} (h : TextSets scan text n sets) {want : List (List V) → Option W}
    (hw : ∀ s ∈ sets, ∀ t : ℕ → ℕ → V, (∀ i < s.length, ∀ k < n, t i k = rowsTable s i k) →
      ind n (minmax.getD fun _ => -1) t s.length (blockTable (fun j => reference.1.getD j 0) n 0) reference.2.2 = want s) :
    indFile scan ind bad minmax reference nobj text = some ((progress want bad sets).1, (progress want bad sets).2, n) := by
  unfold indFile
  rw [readFile_ok hs h hnobj]
  dsimp only
  rw [if_neg (by omega), indSets_eq sets 0 (holdsSets_flatten h.shape.2.2.2) hw]

/-- The values of all files. -/
def wantDest (want : List (List V) → Option W) : Option ℕ × List (List V) → Option (Option ℕ × W) := fun p => (want p.2).map fun v => (p.1, v)

theorem indFiles_eq (hs : ScanOk scan) {suffix : Bool} {n : ℕ} {minmax : Option (ℕ → ℤ)} {reference : List V × ℕ × ℕ} (hcols : n ≤ reference.2.1) {want : List (List V) → Option W} :
    ∀ {texts : List (List Char)} {files : List (List (List (List V)))} (_ : List.Forall₂ (fun s sets => TextSets scan s n sets) texts files)
    (_ : ∀ sets ∈ files, ∀ s ∈ sets, ∀ t : ℕ → ℕ → V, (∀ i < s.length, ∀ k < n, t i k = rowsTable s i k) →
      ind n (minmax.getD fun _ => -1) t s.length (blockTable (fun j => reference.1.getD j 0) n 0) reference.2.2 = want s) (nobj k : ℕ), nobj = 0 ∨ nobj = n → ∀ rest,
    indFiles scan ind bad suffix minmax reference nobj k (texts ++ rest) =
      if (progress (wantDest want) (fun p => bad p.2) (destSets suffix k files)).1 then
        match indFiles scan ind bad suffix minmax reference (if files = [] then nobj else n) (k + files.length) rest with
        | .undefined => .undefined
        | .exit st w => .exit st ((progress (wantDest want) (fun p => bad p.2) (destSets suffix k files)).2 ++ w)
      else .exit 1 (progress (wantDest want) (fun p => bad p.2) (destSets suffix k files)).2 := by
  intro texts files h
  induction h with
  | nil =>
    intro _ nobj k _ rest
    simp only [List.nil_append, destSets, progress, if_true, List.length_nil, Nat.add_zero]
    cases indFiles scan ind bad suffix minmax reference nobj k rest <;> rfl
  | @cons text sets texts files h1 _ ih =>
    intro hw nobj k hnobj rest
    rw [List.cons_append, indFiles, indFile_eq hs hnobj hcols h1 (hw sets (by simp)), destSets, progress_append]
    dsimp only
    have e : progress (wantDest want) (fun p => bad p.2) (sets.map fun s => (if suffix = true then some k else none, s)) = _ :=
      progress_tag (if suffix = true then some k else none) want bad sets
    rw [e]
    dsimp only
    generalize (if suffix = true then some k else none) = dest
    by_cases hg : (progress want bad sets).1 = true
    · rw [if_pos hg, hg, if_pos rfl, ih (fun s hs => hw s (by simp [hs])) n (k + 1) (Or.inr rfl) rest]
      rw [ite_self, if_neg (by simp : ¬ (sets :: files = [])), List.length_cons, show k + (files.length + 1) = k + 1 + files.length by omega]
      dsimp only
      split_ifs with ha
      · cases indFiles scan ind bad suffix minmax reference n (k + 1 + files.length) rest with
        | undefined => rfl
        | exit st w => simp
      · rfl
    · simp only [hg, Bool.false_eq_true, if_false]

/-! ### The options -/

/-- The options give a reference set `R` with `n` objectives and the directions `mx`: one `-r`, and `-o` with `n` characters before or after it, or no `-o`: then all objectives are minimised. -/
def IndArgsOk (scan : NumScan V) (args : List IndArg) (n : ℕ) (mx : ℕ → Bool) (R : List (List V)) : Prop :=
  ∃ text, TextSets scan text n [R] ∧
    (args = [.reference text] ∧ (∀ k < n, mx k = false) ∨ ∃ str, IsDirections str n mx ∧ (args = [.obj str, .reference text] ∨ args = [.reference text, .obj str]))

theorem directions_ok {str : List Char} {n : ℕ} (hn : 0 < n) {mx : ℕ → Bool} (h : IsDirections str n mx) (nobj : ℕ) :
    ∃ minmax, readMinmax junk str nobj = .ok minmax n ∧ ∀ k < n, minmax k = minmaxFromBool mx k := by
  obtain ⟨hl, hc⟩ := h
  have hchar : ∀ c ∈ str, c = '+' ∨ c = '-' := by
    intro c hcm
    obtain ⟨k, hk, rfl⟩ := List.getElem_of_mem hcm
    have := hc k (by omega)
    rw [List.getElem?_eq_getElem hk, Option.some.injEq] at this
    rw [this]
    cases mx k <;> simp
  obtain ⟨minmax, h1, h2⟩ := C44_directions junk str nobj
    (by intro c hcm; rcases hchar c hcm with rfl | rfl <;> simp [directionOf])
    ⟨str[0], List.getElem_mem (by omega), by rcases hchar _ (List.getElem_mem (by omega : 0 < str.length)) with h | h <;> simp [h, directionOf]⟩
  refine ⟨minmax, by rw [h1, hl], ?_⟩
  intro k hk
  obtain ⟨c, e1, e2⟩ := h2 k (by omega)
  rw [Nat.mod_eq_of_lt (by omega), hc k hk, Option.some.injEq] at e1
  subst e1
  unfold minmaxFromBool
  cases hm : mx k
  · rw [hm] at e2; exact (Option.some.inj e2).symm
  · rw [hm] at e2; exact (Option.some.inj e2).symm

theorem indOptions_ok (hs : ScanOk scan) {args : List IndArg} {n : ℕ} {mx : ℕ → Bool} {R : List (List V)} (h : IndArgsOk scan args n mx R) :
    ∃ minmax, (∀ k < n, minmax.getD (fun _ => -1) k = minmaxFromBool mx k) ∧ indOptions scan junk ⟨0, none, none⟩ args = .ok ⟨n, minmax, some (R.flatten, n, R.length)⟩ := by
  obtain ⟨text, ht, h⟩ := h
  have hn := ht.shape.1
  have hread : ∀ nobj, nobj = 0 ∨ nobj = n → readFile scan nobj text = some (some ⟨0, n, [R.length], R.flatten⟩) := by
    intro nobj hnobj
    have := readFile_ok hs ht hnobj
    simpa [cumFrom] using this
  rcases h with ⟨rfl, hmx⟩ | ⟨str, hstr, rfl | rfl⟩
  · refine ⟨none, fun k hk => by simp [minmaxFromBool, hmx k hk, AGREE_MINIMISE], ?_⟩
    rw [indOptions, hread 0 (Or.inl rfl)]
    rfl
  · obtain ⟨minmax, h1, h2⟩ := directions_ok (junk := junk) hn hstr 0
    refine ⟨some minmax, h2, ?_⟩
    rw [indOptions, h1]
    dsimp only
    rw [indOptions]
    dsimp only
    rw [hread n (Or.inr rfl)]
    rfl
  · obtain ⟨minmax, h1, h2⟩ := directions_ok (junk := junk) hn hstr n
    refine ⟨some minmax, h2, ?_⟩
    rw [indOptions, hread 0 (Or.inl rfl)]
    dsimp only
    rw [if_neg (by simp), indOptions]
    dsimp only
    rw [h1]
    rfl

/-- The files that are read: without file names, the standard input. -/
def indInputs (stdin : List Char) (files : List (List Char)) : List (List Char) := if files = [] then [stdin] else files

/-- The indicator depends only on the values that exist. -/
def IndicatorOk (ind : Indicator V W) : Prop := ∀ n m m' A A' nA R R' nR, (∀ k < n, m k = m' k) → (∀ i < nA, ∀ k < n, A i k = A' i k) → (∀ i < nR, ∀ k < n, R i k = R' i k) →
  ind n m A nA R nR = ind n m' A' nA R' nR

/-- What the program does after the options. -/
theorem indMain_eq_files (hs : ScanOk scan) {args : List IndArg} {n : ℕ} {mx : ℕ → Bool} {R : List (List V)} (h : IndArgsOk scan args n mx R) (suffix : Bool) (stdin : List Char) (files : List (List Char)) :
    ∃ minmax, (∀ k < n, minmax.getD (fun _ => -1) k = minmaxFromBool mx k) ∧
      indMain scan junk ind bad suffix args stdin files = indFiles scan ind bad (suffix && !files.isEmpty) minmax (R.flatten, n, R.length) n 0 (indInputs stdin files) := by
  obtain ⟨minmax, h1, h2⟩ := indOptions_ok (junk := junk) hs h
  refine ⟨minmax, h1, ?_⟩
  unfold indMain
  rw [h2]
  cases files with
  | nil => simp [indInputs]
  | cons f files => simp [indInputs]

theorem refTable_eq {n : ℕ} {R : List (List V)} (hlen : ∀ r ∈ R, r.length = n) : ∀ i < R.length, ∀ k < n, blockTable (fun j => R.flatten.getD j 0) n 0 i k = rowsTable R i k := by
  have := (holdsSets_flatten (sets := [R]) (n := n) (by simpa using hlen)).block
  simpa using this

/-- The program, if every input is a text of data sets. -/
theorem indMain_eq (hs : ScanOk scan) (hind : IndicatorOk ind) {args : List IndArg} {n : ℕ} {mx : ℕ → Bool} {R : List (List V)} (h : IndArgsOk scan args n mx R) (suffix : Bool) (stdin : List Char)
    (files : List (List Char)) (sets : List (List (List (List V)))) (good bad' : List (List Char)) (hin : indInputs stdin files = good ++ bad')
    (hf : List.Forall₂ (fun s sets => TextSets scan s n sets) good sets) (hbad : bad' = [] ∨ ∃ b rest, bad' = b :: rest ∧ Unreadable scan b n) :
    indMain scan junk ind bad suffix args stdin files =
      .exit (if (progress (wantDest fun s => ind n (minmaxFromBool mx) (rowsTable s) s.length (rowsTable R) R.length) (fun p => bad p.2) (destSets (suffix && !files.isEmpty) 0 sets)).1 ∧ bad' = []
        then 0 else 1)
        (progress (wantDest fun s => ind n (minmaxFromBool mx) (rowsTable s) s.length (rowsTable R) R.length) (fun p => bad p.2) (destSets (suffix && !files.isEmpty) 0 sets)).2 := by
  obtain ⟨minmax, h1, h2⟩ := indMain_eq_files (junk := junk) (ind := ind) (bad := bad) hs h suffix stdin files
  obtain ⟨text, ht, _⟩ := h
  have hlenR : ∀ r ∈ R, r.length = n := ht.shape.2.2.2 R (by simp)
  rw [h2, hin, indFiles_eq (want := fun s => ind n (minmaxFromBool mx) (rowsTable s) s.length (rowsTable R) R.length) hs (le_refl n) hf
    (fun _ _ s _ t htab => hind n _ _ _ _ _ _ _ _ h1 htab (refTable_eq hlenR)) n 0 (Or.inr rfl) bad', ite_self]
  rcases hbad with rfl | ⟨b, rest, rfl, hb⟩
  · simp only [indFiles, and_true, List.append_nil]
    split_ifs <;> rfl
  · rw [indFiles, indFile, readFile_err hs hb]
    simp

/-- The values of the sets of `pre`; the next set, if any, has no value. -/
theorem progress_stop {want : S → Option W} {bad : W → Bool} {val : S → W} {pre post : List S} (h : ∀ s ∈ pre, want s = some (val s)) (hp : post = [] ∨ ∃ s l, post = s :: l ∧ want s = none) :
    progress want bad (pre ++ post) = (decide ((¬ ∃ v ∈ pre.map val, bad v = true) ∧ post = []), throughFirst (fun v => bad v = true) (pre.map val)) := by
  have e : progress want bad post = (decide (post = []), []) := by
    rcases hp with rfl | ⟨s, l, rfl, hs⟩
    · simp [progress]
    · rw [progress, hs]; simp
  rw [progress_append, progress_all h, e]
  dsimp only
  split_ifs with h1
  · rw [decide_eq_true_eq] at h1
    simp only [List.append_nil, Prod.mk.injEq, and_true, decide_eq_decide]
    exact ⟨fun h => ⟨h1, h⟩, fun h => h.2⟩
  · rw [decide_eq_true_eq] at h1
    simp only [Prod.mk.injEq, and_true, decide_eq_decide]
    exact ⟨fun h => absurd h h1, fun h => h.1⟩

/-- What the program does, with values `val` for the sets that have one. -/
theorem indMain_values {X : Type*} (hs : ScanOk scan) (hind : IndicatorOk ind) {args : List IndArg} {n : ℕ} {mx : ℕ → Bool} {R : List (List V)} (h : IndArgsOk scan args n mx R) (suffix : Bool)
    (stdin : List Char) (files : List (List Char)) (sets : List (List (List (List V)))) (good rest : List (List Char)) (hin : indInputs stdin files = good ++ rest)
    (hf : List.Forall₂ (fun s sets => TextSets scan s n sets) good sets) (hrest : rest = [] ∨ ∃ b l, rest = b :: l ∧ Unreadable scan b n)
    (val : List (List V) → X) (emb : X → W) (isBad : X → Prop) [DecidablePred isBad] (hb : ∀ x, bad (emb x) = true ↔ isBad x) (pre post : List (Option ℕ × List (List V)))
    (hsplit : destSets (suffix && !files.isEmpty) 0 sets = pre ++ post)
    (hpre : ∀ p ∈ pre, ind n (minmaxFromBool mx) (rowsTable p.2) p.2.length (rowsTable R) R.length = some (emb (val p.2)))
    (hpost : post = [] ∨ ∃ p l, post = p :: l ∧ ind n (minmaxFromBool mx) (rowsTable p.2) p.2.length (rowsTable R) R.length = none) :
    indMain scan junk ind bad suffix args stdin files =
      .exit (if (∃ v ∈ pre.map (fun p => (p.1, val p.2)), isBad v.2) ∨ post ≠ [] ∨ rest ≠ [] then 1 else 0)
        ((throughFirst (fun v => isBad v.2) (pre.map fun p => (p.1, val p.2))).map fun v => (v.1, emb v.2)) := by
  classical
  rw [indMain_eq hs hind h suffix stdin files sets good rest hin hf hrest, hsplit, progress_stop (val := fun p => (p.1, emb (val p.2)))]
  · have e : pre.map (fun p => (p.1, emb (val p.2))) = (pre.map fun p => (p.1, val p.2)).map fun v => (v.1, emb v.2) := by
      rw [List.map_map]; rfl
    rw [e]
    generalize pre.map (fun p => (p.1, val p.2)) = vals
    congr 1
    · simp only [decide_eq_true_eq, List.mem_map]
      by_cases h1 : ∃ v ∈ vals, isBad v.2
      · rw [if_pos (Or.inl h1), if_neg]
        rintro ⟨⟨h2, _⟩, _⟩
        obtain ⟨v, hv, h0⟩ := h1
        exact h2 ⟨_, ⟨v, hv, rfl⟩, (hb v.2).2 h0⟩
      · have h2 : ¬ ∃ x : Option ℕ × W, (∃ v ∈ vals, (v.1, emb v.2) = x) ∧ bad x.2 = true := by
          rintro ⟨x, ⟨v, hv, rfl⟩, hx⟩
          exact h1 ⟨v, hv, (hb v.2).1 hx⟩
        by_cases h3 : rest = [] <;> by_cases h4 : post = []
        · rw [if_pos ⟨⟨h2, h4⟩, h3⟩, if_neg (by simp [h1, h3, h4])]
        · rw [if_neg (by simp [h4]), if_pos (Or.inr (Or.inl h4))]
        · rw [if_neg (by simp [h3]), if_pos (Or.inr (Or.inr h3))]
        · rw [if_neg (by simp [h3]), if_pos (Or.inr (Or.inr h3))]
    · exact throughFirst_map _ _ _ (fun v => hb v.2) vals
  · intro p hp
    unfold wantDest
    beta_reduce
    rw [hpre p hp]
    rfl
  · rcases hpost with rfl | ⟨p, l, rfl, hp⟩
    · exact Or.inl rfl
    · refine Or.inr ⟨p, l, rfl, ?_⟩
      unfold wantDest
      beta_reduce
      rw [hp]
      rfl

end generic

/-! ### `epsilon` -/

section eps

variable {K : Type*} [Field K] [LinearOrder K] [IsStrictOrderedRing K] {scan : NumScan K} {junk : ℕ → ℤ}

theorem epsilonIndicator_ok (additive : Bool) : IndicatorOk (epsilonIndicator (K := K) additive) := by
  intro n m m' A A' nA R R' nR hm hA hR
  unfold epsilonIndicator
  have h1 : ∀ b < nR, epsAddMin n m A nA (R b) = epsAddMin n m' A' nA (R' b) := by
    intro b hb
    unfold epsAddMin
    apply List.foldl_ext
    intro x a ha
    have : epsAddMax n m (A a) (R b) = epsAddMax n m' (A' a) (R' b) := by
      unfold epsAddMax
      apply List.foldl_ext
      intro y d hd
      rw [List.mem_range] at hd ha
      rw [hm d hd, hA a ha d hd, hR b hb d hd]
    rw [this]
  have h2 : ∀ a < nA, ∀ b < nR, ∀ (l : List ℕ) (x : Ext K), (∀ d ∈ l, d < n) → epsMultMax m (A a) (R b) l x = epsMultMax m' (A' a) (R' b) l x := by
    intro a ha b hb l
    induction l with
    | nil => intro x _; rfl
    | cons d l ih =>
      intro x hl
      have hd := hl d (by simp)
      rw [epsMultMax, epsMultMax, hm d hd, hA a ha d hd, hR b hb d hd]
      simp only [ih _ (fun d hd => hl d (by simp [hd]))]
  have h3 : ∀ b < nR, ∀ (l : List ℕ) (x : Ext K), (∀ a ∈ l, a < nA) → epsMultMin n m A (R b) l x = epsMultMin n m' A' (R' b) l x := by
    intro b hb l
    induction l with
    | nil => intro x _; rfl
    | cons a l ih =>
      intro x hl
      rw [epsMultMin, epsMultMin, h2 a (hl a (by simp)) b hb _ _ (fun d hd => List.mem_range.1 hd)]
      simp only [ih _ (fun d hd => hl d (by simp [hd]))]
  have h4 : ∀ (l : List ℕ) (x : Ext K), (∀ b ∈ l, b < nR) → epsMultOuter n m A nA R l x = epsMultOuter n m' A' nA R' l x := by
    intro l
    induction l with
    | nil => intro x _; rfl
    | cons b l ih =>
      intro x hl
      rw [epsMultOuter, epsMultOuter, h3 b (hl b (by simp)) _ _ (fun d hd => List.mem_range.1 hd)]
      simp only [ih _ (fun d hd => hl d (by simp [hd]))]
  split_ifs
  · congr 1
    unfold epsilonAdditiveMinmax
    apply List.foldl_ext
    intro x b hb
    rw [h1 b (List.mem_range.1 hb)]
  · exact h4 _ _ (fun b hb => List.mem_range.1 hb)

/-- **C68 (`epsilon`, additive)**: with a reference set `R` of `n` objectives and directions `mx`, if the inputs are texts of data sets with `n` objectives, `epsilon` writes for every set, in order,
the least amount by which the set has to be improved to weakly dominate `R`; after writing a negative one, it stops and fails.  If an input is not such a text, it fails after writing the values of the
inputs before it. -/
theorem C68_epsilon_additive (hs : ScanOk scan) (args : List IndArg) (n : ℕ) (mx : ℕ → Bool) (R : List (List K)) (h : IndArgsOk scan args n mx R) (suffix : Bool) (stdin : List Char)
    (files : List (List Char)) (good rest : List (List Char)) (hin : indInputs stdin files = good ++ rest)
    (sets : List (List (List (List K)))) (hf : List.Forall₂ (fun s sets => TextSets scan s n sets) good sets) (hrest : rest = [] ∨ ∃ b l, rest = b :: l ∧ Unreadable scan b n) :
    ∃ vals : List (Option ℕ × K), List.Forall₂ (fun p v => v.1 = p.1 ∧ IsEpsAdd n mx p.2 R v.2) (destSets (suffix && !files.isEmpty) 0 sets) vals ∧
      epsilonMain scan junk true suffix args stdin files =
        .exit (if (∃ v ∈ vals, v.2 < 0) ∨ rest ≠ [] then 1 else 0) ((throughFirst (fun v => v.2 < 0) vals).map fun v => (v.1, fin v.2)) := by
  classical
  have hR : 0 < n ∧ 0 < R.length := by
    obtain ⟨text, ht, _⟩ := h
    exact ⟨ht.shape.1, List.length_pos_iff.2 (ht.shape.2.2.1 R (by simp))⟩
  have hex : ∀ s : List (List K), ∃ e : K, 0 < s.length → epsilonAdditiveMinmax n (minmaxFromBool mx) (rowsTable s) s.length (rowsTable R) R.length = fin e ∧ IsEpsAdd n mx s R e := by
    intro s
    by_cases hsl : 0 < s.length
    · obtain ⟨e, h1, h2, h3⟩ := C17_epsilon_additive_least (rowsTable s) (rowsTable R) n s.length R.length mx hR.1 hsl hR.2
      exact ⟨e, fun _ => ⟨h1, h2, fun e' he' => h3 e' he'⟩⟩
    · exact ⟨0, fun h => absurd h hsl⟩
  choose val hval using hex
  refine ⟨(destSets (suffix && !files.isEmpty) 0 sets).map fun p => (p.1, val p.2), ?_, ?_⟩
  · rw [List.forall₂_map_right_iff, List.forall₂_same]
    intro p hp
    exact ⟨rfl, (hval p.2 (destSets_ne hf hp).1).2⟩
  · unfold epsilonMain
    rw [indMain_values (X := K) hs (epsilonIndicator_ok true) h suffix stdin files sets good rest hin hf hrest val fin (fun v => v < 0)
      (by intro v; simp [epsilonBad, fin]) (destSets (suffix && !files.isEmpty) 0 sets) [] (by simp)
      (fun p hp => by simp only [epsilonIndicator, if_true]; rw [(hval p.2 (destSets_ne hf hp).1).1]) (Or.inl rfl)]
    simp

theorem mult_value {R : List (List K)} {n : ℕ} (mx : ℕ → Bool) (hn : 0 < n) (hR : 0 < R.length) (hRp : AllPositive n R) (s : List (List K)) (hsl : 0 < s.length) (hsp : AllPositive n s) :
    ∃ e : K, epsilonMultMinmax n (minmaxFromBool mx) (rowsTable s) s.length (rowsTable R) R.length = some (fin e) ∧ IsEpsMult n mx s R e := by
  have hpos : ∀ s : List (List K), AllPositive n s → ∀ a < s.length, ∀ d < n, 0 < rowsTable s a d := by
    intro s hs a ha d hd
    unfold rowsTable
    rw [List.getD_eq_getElem _ _ ha]
    exact hs _ (List.getElem_mem ha) d hd
  obtain ⟨e, h1, h0, h2, h3⟩ := C18_epsilon_mult_least (rowsTable s) (rowsTable R) n s.length R.length mx hn hsl hR (hpos s hsp) (hpos R hRp)
  exact ⟨e, h1, ⟨h0, h2⟩, fun e' he' => h3 e' he'.1 he'.2⟩

theorem mult_none {R : List (List K)} {n : ℕ} (mx : ℕ → Bool) (hR : 0 < R.length) (s : List (List K)) (hsl : 0 < s.length) (hp : ¬ AllPositive n s ∨ ¬ AllPositive n R) :
    epsilonMultMinmax n (minmaxFromBool mx) (rowsTable s) s.length (rowsTable R) R.length = none := by
  have hneg : ∀ s : List (List K), ¬ AllPositive n s → ∃ a < s.length, ∃ d < n, rowsTable s a d ≤ 0 := by
    intro s hs
    unfold AllPositive at hs
    push Not at hs
    obtain ⟨r, hr, d, hd, hle⟩ := hs
    obtain ⟨a, ha, rfl⟩ := List.getElem_of_mem hr
    refine ⟨a, ha, d, hd, ?_⟩
    unfold rowsTable
    rwa [List.getD_eq_getElem _ _ ha]
  exact (C18_epsilon_mult_error_iff (rowsTable s) (rowsTable R) n s.length R.length mx hsl hR).2 (hp.imp (hneg s) (hneg R))

/-- **C68 (`epsilon`, multiplicative)**: the least factor, if `R` has only positive values.  The program fails after writing a value less than 1, at the first set with a value that is not
positive, or at the first input that is not a text of data sets with `n` objectives; the values of the sets before it are written. -/
theorem C68_epsilon_mult (hs : ScanOk scan) (args : List IndArg) (n : ℕ) (mx : ℕ → Bool) (R : List (List K)) (h : IndArgsOk scan args n mx R) (hRp : AllPositive n R) (suffix : Bool) (stdin : List Char)
    (files : List (List Char)) (good rest : List (List Char)) (hin : indInputs stdin files = good ++ rest)
    (sets : List (List (List (List K)))) (hf : List.Forall₂ (fun s sets => TextSets scan s n sets) good sets) (hrest : rest = [] ∨ ∃ b l, rest = b :: l ∧ Unreadable scan b n)
    (pre post : List (Option ℕ × List (List K))) (hsplit : destSets (suffix && !files.isEmpty) 0 sets = pre ++ post) (hpre : ∀ p ∈ pre, AllPositive n p.2)
    (hpost : post = [] ∨ ∃ p l, post = p :: l ∧ ¬ AllPositive n p.2) :
    ∃ vals : List (Option ℕ × K), List.Forall₂ (fun p v => v.1 = p.1 ∧ IsEpsMult n mx p.2 R v.2) pre vals ∧
      epsilonMain scan junk false suffix args stdin files =
        .exit (if (∃ v ∈ vals, v.2 < 1) ∨ post ≠ [] ∨ rest ≠ [] then 1 else 0) ((throughFirst (fun v => v.2 < 1) vals).map fun v => (v.1, fin v.2)) := by
  classical
  have hR : 0 < n ∧ 0 < R.length := by
    obtain ⟨text, ht, _⟩ := h
    exact ⟨ht.shape.1, List.length_pos_iff.2 (ht.shape.2.2.1 R (by simp))⟩
  have hex : ∀ s : List (List K), ∃ e : K, 0 < s.length ∧ AllPositive n s →
      epsilonMultMinmax n (minmaxFromBool mx) (rowsTable s) s.length (rowsTable R) R.length = some (fin e) ∧ IsEpsMult n mx s R e := by
    intro s
    by_cases hsl : 0 < s.length ∧ AllPositive n s
    · obtain ⟨e, he⟩ := mult_value mx hR.1 hR.2 hRp s hsl.1 hsl.2
      exact ⟨e, fun _ => he⟩
    · exact ⟨0, fun h => absurd h hsl⟩
  choose val hval using hex
  have hlen : ∀ p ∈ pre ++ post, 0 < p.2.length := fun p hp => (destSets_ne hf (hsplit ▸ hp)).1
  refine ⟨pre.map fun p => (p.1, val p.2), ?_, ?_⟩
  · rw [List.forall₂_map_right_iff, List.forall₂_same]
    intro p hp
    exact ⟨rfl, (hval p.2 ⟨hlen p (by simp [hp]), hpre p hp⟩).2⟩
  · unfold epsilonMain
    rw [indMain_values (X := K) hs (epsilonIndicator_ok false) h suffix stdin files sets good rest hin hf hrest val fin (fun v => v < 1)
      (by intro v; simp [epsilonBad, fin]) pre post hsplit
      (fun p hp => by
        simp only [epsilonIndicator, Bool.false_eq_true, if_false]
        exact (hval p.2 ⟨hlen p (by simp [hp]), hpre p hp⟩).1)
      (by
        rcases hpost with hpost | ⟨p, l, rfl, hp⟩
        · exact Or.inl hpost
        · refine Or.inr ⟨p, l, rfl, ?_⟩
          simp only [epsilonIndicator, Bool.false_eq_true, if_false]
          exact mult_none mx hR.2 p.2 (hlen p (by simp)) (Or.inl hp))]

/-- **C68 (`epsilon`, multiplicative)**: with a reference set that has a value that is not positive, the program fails and writes nothing. -/
theorem C68_epsilon_mult_reference (hs : ScanOk scan) (args : List IndArg) (n : ℕ) (mx : ℕ → Bool) (R : List (List K)) (h : IndArgsOk scan args n mx R) (hRp : ¬ AllPositive n R) (suffix : Bool)
    (stdin : List Char) (files : List (List Char)) (good rest : List (List Char)) (hin : indInputs stdin files = good ++ rest)
    (sets : List (List (List (List K)))) (hf : List.Forall₂ (fun s sets => TextSets scan s n sets) good sets) (hrest : rest = [] ∨ ∃ b l, rest = b :: l ∧ Unreadable scan b n) :
    epsilonMain scan junk false suffix args stdin files = .exit 1 [] := by
  have hR : 0 < R.length := by
    obtain ⟨text, ht, _⟩ := h
    exact List.length_pos_iff.2 (ht.shape.2.2.1 R (by simp))
  unfold epsilonMain
  have hlen : ∀ p ∈ destSets (suffix && !files.isEmpty) 0 sets, 0 < p.2.length := fun p hp => (destSets_ne hf hp).1
  have hne : destSets (suffix && !files.isEmpty) 0 sets ≠ [] ∨ rest ≠ [] := by
    by_cases hr : rest = []
    · left
      subst hr
      cases hf with
      | nil => exfalso; revert hin; unfold indInputs; split_ifs with h0 <;> simp [h0]
      | @cons a b l l' h1 h2 =>
        rw [destSets]
        have := h1.shape.2.1
        simp [this]
    · exact Or.inr hr
  rw [indMain_values (X := K) hs (epsilonIndicator_ok false) h suffix stdin files sets good rest hin hf hrest (fun _ => 0) fin (fun v => v < 1)
    (by intro v; simp [epsilonBad, fin]) [] _ rfl (by simp)
    (by
      generalize destSets (suffix && !files.isEmpty) 0 sets = d at hlen
      cases d with
      | nil => exact Or.inl rfl
      | cons p l =>
        refine Or.inr ⟨p, l, rfl, ?_⟩
        simp only [epsilonIndicator, Bool.false_eq_true, if_false]
        exact mult_none mx hR p.2 (hlen p (by simp)) (Or.inr hRp))]
  rw [if_pos (Or.inr hne)]
  rfl

end eps

/-! ### `igd` -/

section igd

variable {scan : NumScan ℝ} {junk : ℕ → ℤ}

theorem gdCommon_congr {n : ℕ} {m m' : ℕ → ℤ} {A A' : ℕ → ℕ → ℝ} {nA : ℕ} {R R' : ℕ → ℕ → ℝ} {nR : ℕ} (hm : ∀ k < n, m k = m' k) (hA : ∀ i < nA, ∀ k < n, A i k = A' i k)
    (hR : ∀ i < nR, ∀ k < n, R i k = R' i k) (plus psize : Bool) (p : ℕ) : gdCommon n m A nA R nR plus psize p = gdCommon n m' A' nA R' nR plus psize p := by
  have h1 : ∀ a < nA, gdMin n m plus (A a) R nR = gdMin n m' plus (A' a) R' nR := by
    intro a ha
    unfold gdMin
    apply List.foldl_ext
    intro x r hr
    have : gdDist n m plus (A a) (R r) = gdDist n m' plus (A' a) (R' r) := by
      unfold gdDist
      apply List.foldl_ext
      intro y d hd
      rw [List.mem_range] at hd hr
      rw [hm d hd, hA a ha d hd, hR r hr d hd]
    rw [this]
  have h2 : ∀ z : WithTop ℝ, (List.range nA).foldl (fun gd a => gd + (if p = 1 then (gdMin n m plus (A a) R nR).map Real.sqrt else ((gdMin n m plus (A a) R nR).map Real.sqrt).map (fun x => x ^ p))) z =
      (List.range nA).foldl (fun gd a => gd + (if p = 1 then (gdMin n m' plus (A' a) R' nR).map Real.sqrt else ((gdMin n m' plus (A' a) R' nR).map Real.sqrt).map (fun x => x ^ p))) z := by
    intro z
    apply List.foldl_ext
    intro x a ha
    rw [h1 a (List.mem_range.1 ha)]
  unfold gdCommon
  dsimp only
  rw [h2]

theorem igdIndicator_ok (fl : IgdFlags) (p : ℕ) : IndicatorOk (igdIndicator fl p) := by
  intro n m m' A A' nA R R' nR hm hA hR
  have e1 := gdCommon_congr hm hA hR
  have e2 := gdCommon_congr hm hR hA
  unfold igdIndicator gdMinmax igdMinmax gdP igdP igdPlusMinmax avgHausdorffMinmax
  rw [e1 false false 1, e2 false false 1, e1 false true p, e2 false true p, e2 true true 1]

/-- The values of one line: those that are asked for, in this order. -/
def IgdLine (fl : IgdFlags) (n : ℕ) (mx : ℕ → Bool) (p : ℕ) (R s : List (List ℝ)) (line : List ℝ) : Prop :=
  ∃ gd igd gdp igdp igdplus haus, IsGD n 1 s R gd ∧ IsIGD n 1 s R igd ∧ IsGD n p s R gdp ∧ IsIGD n p s R igdp ∧ IsIGDPlus n mx s R igdplus ∧ IsHausdorff n p s R haus ∧
    line = (if fl.gd then [gd] else []) ++ (if fl.igd then [igd] else []) ++ (if fl.gdp then [gdp] else []) ++ [igdp] ++ (if fl.igdplus then [igdplus] else []) ++
      (if fl.hausdorff then [haus] else [])

theorem gdCommon_avg (n : ℕ) (mx : ℕ → Bool) (p : ℕ) (hp : 1 ≤ p) (psize : Bool) (hps : psize = true ∨ p = 1) (A B : List (List ℝ)) (hA : 0 < A.length) (hB : 0 < B.length) :
    ∃ v : ℝ, gdCommon n (minmaxFromBool mx) (rowsTable A) A.length (rowsTable B) B.length false psize p = (v : WithTop ℝ) ∧ IsAvgDist (euclid n) p A B v := by
  obtain ⟨m, h, e⟩ := gdCommon_spec n (minmaxFromBool mx) (rowsTable A) A.length (rowsTable B) B.length false psize p hA hB
  refine ⟨_, e, m, fun a _ => ?_, ?_⟩
  · have := h a
    simp only [sqrt_gdDist_euclid] at this
    exact this
  · by_cases h1 : p = 1
    · subst h1; simp
    · rw [if_neg h1, if_pos (hps.resolve_right h1)]

theorem gdCommon_plus (n : ℕ) (mx : ℕ → Bool) (R s : List (List ℝ)) (hR : 0 < R.length) (hs : 0 < s.length) :
    ∃ v : ℝ, igdPlusMinmax n (minmaxFromBool mx) (rowsTable s) s.length (rowsTable R) R.length = (v : WithTop ℝ) ∧ IsIGDPlus n mx s R v := by
  obtain ⟨m, h, e⟩ := C21_igd_plus_mean_nearest (rowsTable s) (rowsTable R) n s.length R.length mx hs hR
  exact ⟨_, e, m, h, by simp⟩

theorem igdIndicator_line (fl : IgdFlags) (n : ℕ) (mx : ℕ → Bool) (p : ℕ) (hp : 1 ≤ p) (R s : List (List ℝ)) (hR : 0 < R.length) (hs : 0 < s.length) :
    ∃ line, igdIndicator fl p n (minmaxFromBool mx) (rowsTable s) s.length (rowsTable R) R.length = some (line.map fun v => (v : WithTop ℝ)) ∧ IgdLine fl n mx p R s line := by
  obtain ⟨gd, e1, h1⟩ := gdCommon_avg n mx 1 le_rfl false (Or.inr rfl) s R hs hR
  obtain ⟨igd, e2, h2⟩ := gdCommon_avg n mx 1 le_rfl false (Or.inr rfl) R s hR hs
  obtain ⟨gdp, e3, h3⟩ := gdCommon_avg n mx p hp true (Or.inl rfl) s R hs hR
  obtain ⟨igdp, e4, h4⟩ := gdCommon_avg n mx p hp true (Or.inl rfl) R s hR hs
  obtain ⟨igdplus, e5, h5⟩ := gdCommon_plus n mx R s hR hs
  refine ⟨_, ?_, gd, igd, gdp, igdp, igdplus, max gdp igdp, h1, h2, h3, h4, h5, ⟨gdp, igdp, h3, h4, rfl⟩, rfl⟩
  unfold igdIndicator gdMinmax igdMinmax gdP igdP avgHausdorffMinmax
  rw [e1, e2, e3, e4, e5, cMax_eq]
  rcases fl with ⟨a, b, c, d, e⟩
  cases a <;> cases b <;> cases c <;> cases d <;> cases e <;> simp

/-- **C68 (`igd`)**: with a reference set `R` of `n` objectives, directions `mx` and the exponent `p`, if the inputs are texts of data sets with `n` objectives, `igd` writes for every set, in
order, a line with the values that are asked for.  If an input is not such a text, it fails after writing the lines of the inputs before it. -/
theorem C68_igd (hs : ScanOk scan) (args : List IndArg) (n : ℕ) (mx : ℕ → Bool) (R : List (List ℝ)) (h : IndArgsOk scan args n mx R) (fl : IgdFlags) (p : ℕ) (hp : 1 ≤ p) (suffix : Bool)
    (stdin : List Char) (files : List (List Char)) (good rest : List (List Char)) (hin : indInputs stdin files = good ++ rest)
    (sets : List (List (List (List ℝ)))) (hf : List.Forall₂ (fun s sets => TextSets scan s n sets) good sets) (hrest : rest = [] ∨ ∃ b l, rest = b :: l ∧ Unreadable scan b n) :
    ∃ lines : List (Option ℕ × List ℝ), List.Forall₂ (fun q v => v.1 = q.1 ∧ IgdLine fl n mx p R q.2 v.2) (destSets (suffix && !files.isEmpty) 0 sets) lines ∧
      igdMain scan junk fl p suffix args stdin files = .exit (if rest = [] then 0 else 1) (lines.map fun v => (v.1, v.2.map fun x => (x : WithTop ℝ))) := by
  classical
  have hR : 0 < R.length := by
    obtain ⟨text, ht, _⟩ := h
    exact List.length_pos_iff.2 (ht.shape.2.2.1 R (by simp))
  have hex : ∀ s : List (List ℝ), ∃ line, 0 < s.length → igdIndicator fl p n (minmaxFromBool mx) (rowsTable s) s.length (rowsTable R) R.length = some (line.map fun v => (v : WithTop ℝ)) ∧
      IgdLine fl n mx p R s line := by
    intro s
    by_cases hsl : 0 < s.length
    · obtain ⟨line, hl⟩ := igdIndicator_line fl n mx p hp R s hR hsl
      exact ⟨line, fun _ => hl⟩
    · exact ⟨[], fun h => absurd h hsl⟩
  choose val hval using hex
  refine ⟨(destSets (suffix && !files.isEmpty) 0 sets).map fun q => (q.1, val q.2), ?_, ?_⟩
  · rw [List.forall₂_map_right_iff, List.forall₂_same]
    intro q hq
    exact ⟨rfl, (hval q.2 (destSets_ne hf hq).1).2⟩
  · unfold igdMain
    rw [indMain_values hs (igdIndicator_ok fl p) h suffix stdin files sets good rest hin hf hrest val (fun l => l.map fun x => (x : WithTop ℝ)) (fun _ => False)
      (by intro v; simp) (destSets (suffix && !files.isEmpty) 0 sets) [] (by simp)
      (fun q hq => (hval q.2 (destSets_ne hf hq).1).1) (Or.inl rfl)]
    have e : ∀ l : List (Option ℕ × List ℝ), throughFirst (fun _ => False) l = l := by
      intro l
      induction l with
      | nil => rfl
      | cons a l ih => rw [throughFirst, if_neg id, ih]
    rw [e]
    by_cases hr : rest = [] <;> simp [hr]

end igd

/-! ### Wrong arguments

These hold for both programs: `ind` is any indicator. -/

section errors

variable {V W : Type*} [Zero V] {scan : NumScan V} {junk : ℕ → ℤ} {ind : Indicator V W} {bad : W → Bool}

/-- **C68 (no reference set)**: without `-r` the programs fail, whatever the inputs are. -/
theorem C68_no_reference (suffix : Bool) (stdin : List Char) (files : List (List Char)) : indMain scan junk ind bad suffix [] stdin files = .exit 1 [] := rfl

/-- **C68 (`-o`)**: a character other than `+ - 0 i` makes the programs fail. -/
theorem C68_bad_obj (str : List Char) (hstr : ∃ c ∈ str, c ≠ '+' ∧ c ≠ '-' ∧ c ≠ '0' ∧ c ≠ 'i') (args : List IndArg) (suffix : Bool) (stdin : List Char) (files : List (List Char)) :
    indMain scan junk ind bad suffix (.obj str :: args) stdin files = .exit 1 [] := by
  have : readMinmax junk str 0 = .null := by
    rw [C44_null]
    obtain ⟨c, hc, h1, h2, h3, h4⟩ := hstr
    refine ⟨c, hc, ?_⟩
    unfold directionOf
    split <;> simp_all
  unfold indMain
  rw [indOptions]
  dsimp only
  rw [this]

/-- **C68 (`-o`)**: if all objectives are ignored, the programs write nothing and report success. -/
theorem C68_all_ignored (str : List Char) (hstr : ∀ c ∈ str, c = '0' ∨ c = 'i') (args : List IndArg) (suffix : Bool) (stdin : List Char) (files : List (List Char)) :
    indMain scan junk ind bad suffix (.obj str :: args) stdin files = .exit 0 [] := by
  have : readMinmax junk str 0 = .exit := by
    rw [C44_exit]
    intro c hc
    rcases hstr c hc with rfl | rfl <;> rfl
  unfold indMain
  rw [indOptions]
  dsimp only
  rw [this]

/-- **C68 (unreadable reference set)**: the programs fail. -/
theorem C68_reference_unreadable (hs : ScanOk scan) (text : List Char) (h : Unreadable scan text 0) (args : List IndArg) (suffix : Bool) (stdin : List Char) (files : List (List Char)) :
    indMain scan junk ind bad suffix (.reference text :: args) stdin files = .exit 1 [] := by
  unfold indMain
  rw [indOptions, readFile_err hs h]

/-- **C68 (several reference sets)**: a reference file with more than one set is not reported as an error: an assertion fails. -/
theorem C68_reference_sets_undefined (hs : ScanOk scan) (text : List Char) (n : ℕ) (sets : List (List (List V))) (h : TextSets scan text n sets) (h2 : 2 ≤ sets.length) (args : List IndArg)
    (suffix : Bool) (stdin : List Char) (files : List (List Char)) : indMain scan junk ind bad suffix (.reference text :: args) stdin files = .undefined := by
  unfold indMain
  rw [indOptions, readFile_ok hs h (Or.inl rfl)]
  dsimp only
  have hl : ∀ (l : List ℕ) (a : ℕ), (cumFrom a l).length = l.length := by
    intro l
    induction l with
    | nil => intro a; rfl
    | cons b l ih => intro a; rw [cumFrom, List.length_cons, List.length_cons, ih]
  rw [if_pos (by rw [hl, List.length_map]; omega)]

/-- **C68 (`-o` after `-r`)**: the length of the argument of `-o` is not compared with the reference set that was read before it.  If the argument and the inputs have more objectives than the
reference set, the programs read beyond the end of the reference set. -/
theorem C68_long_obj_undefined (hs : ScanOk scan) (text : List Char) (n : ℕ) (R : List (List V)) (h : TextSets scan text n [R]) (str : List Char) (mx : ℕ → Bool) (n' : ℕ) (hstr : IsDirections str n' mx)
    (hn : n < n') (suffix : Bool) (stdin file : List Char) (files : List (List Char)) (sets : List (List (List V))) (hf : TextSets scan file n' sets) :
    indMain scan junk ind bad suffix [.reference text, .obj str] stdin (file :: files) = .undefined := by
  obtain ⟨minmax, h1, h2⟩ := directions_ok (junk := junk) (by omega) hstr n
  unfold indMain
  rw [indOptions, readFile_ok hs h (Or.inl rfl)]
  dsimp only
  rw [if_neg (by simp [cumFrom]), indOptions]
  dsimp only
  rw [h1]
  dsimp only
  rw [indOptions]
  dsimp only
  rw [indFiles, indFile, readFile_ok hs hf (Or.inr rfl)]
  dsimp only
  rw [if_pos hn]

end errors

/-! ### The hypotheses can be met, and examples -/

/-- The values written by a program, for the examples. -/
def ProgOut.toOption {W : Type*} : ProgOut W → Option (ℕ × List W)
  | .undefined => none
  | .exit s w => some (s, w)

/-- The scanner of the examples: decimal integers. -/
def scanRat : NumScan ℚ := scanMap (fun z : ℤ => (z : ℚ)) scanInt

theorem scanRat_ok : ScanOk scanRat := scanMap_ok _ scanInt_ok

theorem scanReal_ok : ScanOk scanReal := scanMap_ok _ scanInt_ok

/-- Two inputs, the second objective is maximised, `-o` after `-r`. -/
example (junk : ℕ → ℤ) : ∃ vals : List (Option ℕ × ℚ),
    List.Forall₂ (fun p v => v.1 = p.1 ∧ IsEpsAdd 2 (fun k => k == 1) p.2 [[1, 2], [2, 3]] v.2) [(some 0, [[2, 1], [3, 3]]), (some 0, [[0, 0]]), (some 1, [[4, 1]])] vals ∧
    epsilonMain scanRat junk true true [.reference "1 2\n2 3\n".toList, .obj "-+".toList] [] ["2 1\n3 3\n\n0 0\n".toList, "4 1".toList] =
      .exit (if (∃ v ∈ vals, v.2 < 0) ∨ ([] : List (List Char)) ≠ [] then 1 else 0) ((throughFirst (fun v => v.2 < 0) vals).map fun v => (v.1, fin v.2)) := by
  have hR : TextSets scanRat "1 2\n2 3\n".toList 2 _ := (checkText_sound (sets := [[[1, 2], [2, 3]]]) (by decide +kernel)).scanMap _
  have h1 : TextSets scanRat "2 1\n3 3\n\n0 0\n".toList 2 _ := (checkText_sound (sets := [[[2, 1], [3, 3]], [[0, 0]]]) (by decide +kernel)).scanMap _
  have h2 : TextSets scanRat "4 1".toList 2 _ := (checkText_sound (sets := [[[4, 1]]]) (by decide +kernel)).scanMap _
  have := C68_epsilon_additive (junk := junk) scanRat_ok [.reference "1 2\n2 3\n".toList, .obj "-+".toList] 2 (fun k => k == 1) [[1, 2], [2, 3]]
    ⟨_, by simpa using hR, Or.inr ⟨_, ⟨rfl, by intro k hk; interval_cases k <;> rfl⟩, Or.inr rfl⟩⟩ true [] ["2 1\n3 3\n\n0 0\n".toList, "4 1".toList] _ [] (by simp [indInputs]) _
    (.cons h1 (.cons h2 .nil)) (Or.inl rfl)
  simpa [destSets] using this

/-- A run of the program: the set {(2, 1), (3, 3)} has to be improved by 1 (the first objective of the second point), {(0, 0)} by 3 (the second objective, which is maximised). -/
example : (epsilonMain scanRat (fun _ => 0) true false [.obj "-+".toList, .reference "1 2\n2 3\n".toList] [] ["2 1\n3 3\n\n0 0\n".toList]).toOption = some (0, [(none, fin 1), (none, fin 3)]) := by
  decide +kernel

/-- Multiplicative: after a value that is less than 1 the program fails; the third set is not looked at. -/
example : (epsilonMain scanRat (fun _ => 0) false false [.reference "2 2\n".toList] "4 1\n\n1 1\n\n2 2\n".toList []).toOption = some (1, [(none, fin 2), (none, fin (1 / 2))]) := by
  decide +kernel

/-- Multiplicative: the second set has a value that is not positive. -/
example : (epsilonMain scanRat (fun _ => 0) false false [.reference "2 2\n".toList] "4 1\n\n0 1\n\n2 2\n".toList []).toOption = some (1, [(none, fin 2)]) := by
  decide +kernel

/-- The same with the theorem; an unreadable input follows. -/
example (junk : ℕ → ℤ) : ∃ vals : List (Option ℕ × ℚ), List.Forall₂ (fun p v => v.1 = p.1 ∧ IsEpsMult 2 (fun _ => false) p.2 [[2, 2]] v.2) [(none, [[4, 1]])] vals ∧
    epsilonMain scanRat junk false false [.reference "2 2\n".toList] [] ["4 1\n\n0 1\n\n2 2\n".toList, "1 2 3\n".toList] =
      .exit (if (∃ v ∈ vals, v.2 < 1) ∨ [((none : Option ℕ), [[(0 : ℚ), 1]]), (none, [[2, 2]])] ≠ [] ∨ ["1 2 3\n".toList] ≠ [] then 1 else 0)
        ((throughFirst (fun v => v.2 < 1) vals).map fun v => (v.1, fin v.2)) := by
  have hR : TextSets scanRat "2 2\n".toList 2 _ := (checkText_sound (sets := [[[2, 2]]]) (by decide +kernel)).scanMap _
  have h1 : TextSets scanRat "4 1\n\n0 1\n\n2 2\n".toList 2 _ := (checkText_sound (sets := [[[4, 1]], [[0, 1]], [[2, 2]]]) (by decide +kernel)).scanMap _
  have h2 : Unreadable scanRat "1 2 3\n".toList 2 := by
    rcases textSets_or_unreadable scanRat "1 2 3\n".toList (by decide) 2 with ⟨n, sets, h0, h⟩ | h
    · have h3 : TextSets scanRat "1 2 3\n".toList 3 _ := (checkText_sound (sets := [[[1, 2, 3]]]) (by decide +kernel)).scanMap _
      have e1 := readFile_ok scanRat_ok h (Or.inl rfl)
      have e2 := readFile_ok scanRat_ok h3 (Or.inl rfl)
      rw [e1] at e2
      have := congrArg (fun o : Option (Option (RdOut ℚ)) => (o.map fun o => o.map RdOut.nobjs)) e2
      simp at this
      omega
    · exact h
  exact C68_epsilon_mult (junk := junk) scanRat_ok [.reference "2 2\n".toList] 2 (fun _ => false) [[2, 2]] ⟨_, by simpa using hR, Or.inl ⟨rfl, fun _ _ => rfl⟩⟩
    (by intro r hr k hk; simp only [List.mem_singleton] at hr; subst hr; interval_cases k <;> simp) false [] ["4 1\n\n0 1\n\n2 2\n".toList, "1 2 3\n".toList]
    ["4 1\n\n0 1\n\n2 2\n".toList] ["1 2 3\n".toList] (by simp [indInputs]) _ (.cons h1 .nil) (Or.inr ⟨_, _, rfl, h2⟩) [(none, [[4, 1]])] [(none, [[0, 1]]), (none, [[2, 2]])] (by simp [destSets])
    (by intro p hp r hr k hk; simp only [List.mem_singleton] at hp; subst hp; simp only [List.mem_singleton] at hr; subst hr; interval_cases k <;> simp)
    (Or.inr ⟨_, _, rfl, fun h => absurd (h [0, 1] (by simp) 0 (by omega)) (by simp)⟩)

/-- The reference set has two objectives, and `-o` after it only one: the reference set {(1, 2), (3, 4)} is silently read as {(1), (2)}, and the value for the set {(5)} is 4. -/
theorem C68_short_obj_misread : (epsilonMain scanRat (fun _ => 0) true false [.reference "1 2\n3 4\n".toList, .obj "-".toList] "5\n".toList []).toOption = some (0, [(none, fin 4)]) := by
  decide +kernel

/-- Without the second objective, the set {(0)} has the additive epsilon indicator -1 with respect to {(1)}; if the second objective is ignored with `-o -i`, the program writes 0. -/
theorem C68_ignored_objective : (epsilonMain scanRat (fun _ => 0) true false [.obj "-i".toList, .reference "1 5\n".toList] "0 5\n".toList []).toOption = some (0, [(none, fin 0)]) ∧
    (epsilonMain scanRat (fun _ => 0) true false [.obj "-".toList, .reference "1\n".toList] "0\n".toList []).toOption = some (1, [(none, fin (-1))]) := by
  constructor <;> decide +kernel

/-- `igd` with GD and the Hausdorff distance, from the standard input. -/
example (junk : ℕ → ℤ) : ∃ lines : List (Option ℕ × List ℝ),
    List.Forall₂ (fun q v => v.1 = q.1 ∧ IgdLine ⟨true, false, false, false, true⟩ 2 (fun _ => false) 2 [[1, 2], [2, 3]] q.2 v.2) [(none, [[2, 1], [3, 3]]), (none, [[0, 0]])] lines ∧
    igdMain scanReal junk ⟨true, false, false, false, true⟩ 2 false [.reference "1 2\n2 3\n".toList] "2 1\n3 3\n\n0 0\n".toList [] =
      .exit 0 (lines.map fun v => (v.1, v.2.map fun x => (x : WithTop ℝ))) := by
  have hR : TextSets scanReal "1 2\n2 3\n".toList 2 _ := (checkText_sound (sets := [[[1, 2], [2, 3]]]) (by decide +kernel)).scanMap _
  have h1 : TextSets scanReal "2 1\n3 3\n\n0 0\n".toList 2 _ := (checkText_sound (sets := [[[2, 1], [3, 3]], [[0, 0]]]) (by decide +kernel)).scanMap _
  have := C68_igd (junk := junk) scanReal_ok [.reference "1 2\n2 3\n".toList] 2 (fun _ => false) [[1, 2], [2, 3]]
    ⟨_, by simpa using hR, Or.inl ⟨rfl, fun _ _ => rfl⟩⟩ ⟨true, false, false, false, true⟩ 2 (by omega) false "2 1\n3 3\n\n0 0\n".toList [] _ [] (by simp [indInputs]) _
    (.cons h1 .nil) (Or.inl rfl)
  simpa [destSets] using this

/-- A reference file with two sets. -/
example (junk : ℕ → ℤ) : epsilonMain scanRat junk true false [.reference "1 2\n\n2 3\n".toList] "1 1".toList [] = .undefined :=
  C68_reference_sets_undefined scanRat_ok _ 2 _ ((checkText_sound (sets := [[[1, 2]], [[2, 3]]]) (by decide +kernel)).scanMap _) (by simp) _ _ _ _

/-- `-o` with two objectives after a reference set with one. -/
example (junk : ℕ → ℤ) : epsilonMain scanRat junk true false [.reference "1\n".toList, .obj "--".toList] [] ["1 1".toList] = .undefined := by
  have hR : TextSets scanRat "1\n".toList 1 _ := (checkText_sound (sets := [[[1]]]) (by decide +kernel)).scanMap _
  exact C68_long_obj_undefined scanRat_ok _ 1 [[1]] (by simpa using hR) _ (fun _ => false) 2 ⟨rfl, by intro k hk; interval_cases k <;> rfl⟩ (by omega) _ _ _ _ _
    ((checkText_sound (sets := [[[1, 1]]]) (by decide +kernel)).scanMap _)

end Moo
