import Verif.Lemmas.IoWrite
import Verif.Props.Io

/-!
# Property C31: what is written is what is read

`fmt` is the conversion `%-22.15g` and `rd v` the number that is read for the text of `v`; what is assumed of them is `FmtOk`.  A concrete instance, for integers, is at the end.
-/

set_option autoImplicit false

namespace Moo

variable {V : Type*}

/-- **C31 (layout)**: a file with any comments and blank lines first, and sets (rows of `n` numbers) that are each followed by one or more comments or blank lines,
is read as the non-empty sets, in order. -/
theorem C31_layout {fmt : V → List Char} {scan : NumScan V} {rd : V → V} (hs : ScanOk scan) (hf : FmtOk fmt scan rd) {n : ℕ} (hn : 0 < n)
    {pre : List (List Char)} {sets : List (List (List V) × List (List Char))} (hpre : ∀ l ∈ pre, SepLine l)
    (hseps : ∀ p ∈ sets, p.2 ≠ [] ∧ ∀ l ∈ p.2, SepLine l) (hrows : ∀ p ∈ sets, ∀ r ∈ p.1, r.length = n) (hne : ∃ p ∈ sets, p.1 ≠ [])
    {text : List Char} (htext : text = unlinesC (setLines (vectorFprintf fmt) pre sets)) {fuel : ℕ} (hfuel : text.length + 2 < fuel) :
    readData scan fuel 0 [] [] text = some ⟨0, n, cumFrom 0 (((sets.map Prod.fst).filter (fun s => !s.isEmpty)).map List.length),
      (sets.map Prod.fst).flatten.flatten.map rd⟩ := by
  subst htext
  have hr' : ∀ p ∈ sets, ∀ r ∈ p.1, r ≠ [] := by
    intro p hp r hr h0
    have := hrows p hp r hr
    rw [h0] at this; simp at this; omega
  have hch := setLines_chars hf (sets := sets) hpre (fun p hp => (hseps p hp).2)
  have hkinds := setLines_kinds hf hpre (fun p hp => (hseps p hp).2) hr'
  have hks := forall₂_append' hkinds (show List.Forall₂ (IsLine scan) [[]] (List.replicate 1 .sep) from .cons (Or.inr (by simp)) .nil)
  rw [← textLines_unlines _ (fun l hl hc => (hch l hl _ hc).1 rfl)] at hks
  have hmem : ∀ k ∈ setKinds pre.length (sets.map (fun p => (p.1.map (List.map rd), p.2.length))) ++ List.replicate 1 .sep,
      k = .sep ∨ ∃ p ∈ sets, ∃ r ∈ p.1, k = .row (r.map rd) := by
    intro k hk
    rw [setKinds, List.mem_append, List.mem_append, List.mem_flatten] at hk
    rcases hk with (hk | ⟨l, hl, hk⟩) | hk
    · exact Or.inl (List.eq_of_mem_replicate hk)
    · simp only [List.map_map, List.mem_map, Function.comp] at hl
      obtain ⟨p, hp, rfl⟩ := hl
      rcases List.mem_append.1 hk with hk | hk
      · obtain ⟨r, hr, rfl⟩ := List.mem_map.1 hk
        exact Or.inr ⟨p, hp, r, hr, rfl⟩
      · exact Or.inl (List.eq_of_mem_replicate hk)
    · exact Or.inl (List.eq_of_mem_replicate hk)
  have := C32_accept hs (cleanText_unlines hch) hfuel hks (n := n) (by
    intro k hk
    rcases hmem k hk with h | ⟨p, hp, r, hr, h⟩
    · exact Or.inl h
    · exact Or.inr ⟨_, h, by rw [List.length_map]; exact hrows p hp r hr⟩) (by
    obtain ⟨p, hp, hne⟩ := hne
    obtain ⟨r, hr⟩ := List.exists_mem_of_ne_nil _ hne
    refine ⟨r.map rd, ?_⟩
    rw [setKinds]
    refine List.mem_append_left _ (List.mem_append_right _ (List.mem_flatten.2
      ⟨_, List.mem_map.2 ⟨_, List.mem_map.2 ⟨p, hp, rfl⟩, rfl⟩, List.mem_append_left _ ?_⟩))
    exact List.mem_map.2 ⟨r.map rd, List.mem_map.2 ⟨r, hr, rfl⟩, rfl⟩)
  rw [this, setsOf_setKinds _ _ (by
    intro p hp
    obtain ⟨q, hq, rfl⟩ := List.mem_map.1 hp
    exact fun h0 => (hseps q hq).1 (List.length_eq_zero_iff.1 h0))]
  congr 2
  · congr 1
    rw [List.map_map]
    clear hmem hks hkinds hch this hfuel hseps hrows hne hr'
    induction sets with
    | nil => rfl
    | cons p sets ih =>
      simp only [List.map_cons, Function.comp, List.filter_cons, List.isEmpty_map] at ih ⊢
      split_ifs <;> simp [ih]
  · rw [List.map_map]
    clear hmem hks hkinds hch this hfuel hseps hrows hne hr'
    induction sets with
    | nil => rfl
    | cons p sets ih =>
      simp only [List.map_cons, Function.comp, List.filter_cons, List.isEmpty_map, List.flatten_cons, List.flatten_append, List.map_append] at ih ⊢
      rw [← ih]
      cases p.1 with
      | nil => simp
      | cons r rs => simp [List.map_flatten]

/-- **C31**: reading what `write_sets` writes gives back the sets: the number of objectives, the cumulative sizes, and every value after the rounding of the format. -/
theorem C31_round_trip {fmt : V → List Char} {scan : NumScan V} {rd : V → V} (hs : ScanOk scan) (hf : FmtOk fmt scan rd) {n : ℕ} (hn : 0 < n)
    {sets : List (List (List V))} (hsets : sets ≠ []) (hne : ∀ s ∈ sets, s ≠ []) (hrows : ∀ s ∈ sets, ∀ r ∈ s, r.length = n)
    {data : ℕ → V} (hdata : ∀ i (h : i < sets.flatten.length), (List.range n).map (fun j => data (n * i + j)) = sets.flatten[i])
    {text : List Char} (htext : text = writeSets fmt data n (cumFrom 0 (sets.map List.length)) 0) {fuel : ℕ} (hfuel : text.length + 2 < fuel) :
    readData scan fuel 0 [] [] text = some ⟨0, n, cumFrom 0 (sets.map List.length), sets.flatten.flatten.map rd⟩ := by
  rw [writeSets_unlines fmt data n sets 0 (fun i hi => by rw [Nat.zero_add]; exact hdata i hi)] at htext
  have hfst : (sets.map (fun s => (s, ([[]] : List (List Char))))).map Prod.fst = sets := by simp [List.map_map, Function.comp_def]
  rw [C31_layout hs hf hn (by simp) (by simp [SepLine]) (by simpa using hrows)
    (by obtain ⟨s, hs⟩ := List.exists_mem_of_ne_nil _ hsets; exact ⟨(s, [[]]), by simp [hs], hne s hs⟩) htext hfuel, hfst]
  rw [List.filter_eq_self.2 (by intro s hs; simpa using hne s hs)]

/-- **C31 (filtered)**: reading what `write_sets_filtered` writes gives the selected points of each set; a set with no selected point disappears. -/
theorem C31_filtered {fmt : V → List Char} {scan : NumScan V} {rd : V → V} (hs : ScanOk scan) (hf : FmtOk fmt scan rd) {n : ℕ} (hn : 0 < n)
    {sets : List (List (List V))} (hrows : ∀ s ∈ sets, ∀ r ∈ s, r.length = n)
    {data : ℕ → V} (hdata : ∀ i (h : i < sets.flatten.length), (List.range n).map (fun j => data (n * i + j)) = sets.flatten[i])
    {wp : ℕ → Bool} (hsome : ∃ s ∈ selectSets wp 0 sets, s ≠ [])
    {text : List Char} (htext : text = writeSetsFiltered fmt data n wp (cumFrom 0 (sets.map List.length)) 0) {fuel : ℕ} (hfuel : text.length + 2 < fuel) :
    readData scan fuel 0 [] [] text = some ⟨0, n, cumFrom 0 (((selectSets wp 0 sets).filter (fun s => !s.isEmpty)).map List.length),
      (selectSets wp 0 sets).flatten.flatten.map rd⟩ := by
  rw [writeSetsFiltered_unlines fmt data n wp sets 0 (fun i hi => by rw [Nat.zero_add]; exact hdata i hi)] at htext
  have hfst : ((selectSets wp 0 sets).map (fun s => (s, ([[]] : List (List Char))))).map Prod.fst = selectSets wp 0 sets := by
    simp [List.map_map, Function.comp_def]
  rw [C31_layout hs hf hn (by simp) (by simp [SepLine]) (by
    intro p hp r hr
    obtain ⟨s, hs, rfl⟩ := List.mem_map.1 hp
    obtain ⟨s', h1, h2⟩ := mem_selectSets hs hr
    exact hrows s' h1 r h2)
    (by obtain ⟨s, hs, h0⟩ := hsome; exact ⟨(s, [[]]), by simp [hs], h0⟩) htext hfuel, hfst]

/-- **C31 (comments split sets)**: a comment between two points of a set splits the set. -/
theorem C31_comment_splits (a b : List (List V)) (ha : a ≠ []) (hb : b ≠ []) :
    setsOf (a.map .row ++ .sep :: b.map .row) = [a, b] := by
  have h1 := setsAux_group [] a 0 (b.map .row)
  rw [List.replicate_one, List.singleton_append] at h1
  have h2 : ∀ (cur b : List (List V)), cur ++ b ≠ [] → setsAux cur (b.map .row) = [cur ++ b] := by
    intro cur b
    induction b generalizing cur with
    | nil => intro h; simp at h; simp [setsAux, h]
    | cons r b ih => intro _; rw [List.map_cons, setsAux, ih _ (by simp)]; simp
  rw [setsOf, h1, h2 [] b (by simpa using hb)]
  simp [ha]

/-! ## An instance: integers -/

/-- Decimal digits. -/
def isDigitC (c : Char) : Bool := 48 ≤ c.toNat && c.toNat ≤ 57

/-- The digit `d`. -/
def digitC (d : ℕ) : Char := Char.ofNat (48 + d)

/-- The value of a string of digits. -/
def digitsVal (ds : List Char) : ℕ := ds.foldl (fun a c => 10 * a + (c.toNat - 48)) 0

/-- An unsigned number. -/
def scanDigits (sgn : ℤ) (s : List Char) : Option (ℤ × List Char) :=
  if s.takeWhile isDigitC = [] then none else some (sgn * digitsVal (s.takeWhile isDigitC), s.dropWhile isDigitC)

/-- `%d` of `fscanf`, without a bound on the value. -/
def scanInt : NumScan ℤ
  | [] => none
  | c :: t => if c = '-' then scanDigits (-1) t else if c = '+' then scanDigits 1 t else scanDigits 1 (c :: t)

/-- The decimal digits of `n`. -/
def decimal : ℕ → ℕ → List Char
  | 0, n => [digitC (n % 10)]
  | f + 1, n => if n < 10 then [digitC n] else decimal f (n / 10) ++ [digitC (n % 10)]

/-- The text of an integer, without padding. -/
def intText (z : ℤ) : List Char := (if z < 0 then ['-'] else []) ++ decimal z.natAbs z.natAbs

/-- `%-22d` of `fprintf`. -/
def printInt (z : ℤ) : List Char := intText z ++ List.replicate (22 - (intText z).length) ' '

theorem digit_facts : ∀ d < 10, isDigitC (digitC d) = true ∧ (digitC d).toNat - 48 = d ∧ isSpaceC (digitC d) = false ∧ digitC d ≠ '-' ∧ digitC d ≠ '+' ∧ digitC d ≠ '#' := by
  decide

theorem decimal_spec (f : ℕ) : ∀ n, n ≤ f → digitsVal (decimal f n) = n ∧ decimal f n ≠ [] ∧
    ∀ c ∈ decimal f n, isDigitC c = true ∧ isSpaceC c = false ∧ c ≠ '-' ∧ c ≠ '+' ∧ c ≠ '#' := by
  induction f with
  | zero =>
    intro n hn
    obtain rfl : n = 0 := by omega
    decide
  | succ f ih =>
    intro n hn
    rw [decimal]
    split_ifs with h
    · have := digit_facts n h
      refine ⟨by simp [digitsVal, this.2.1], by simp, ?_⟩
      intro c hc
      rw [List.mem_singleton.1 hc]
      exact ⟨this.1, this.2.2⟩
    · obtain ⟨h1, h2, h3⟩ := ih (n / 10) (by omega)
      have hd := digit_facts (n % 10) (by omega)
      refine ⟨?_, by simp, ?_⟩
      · rw [digitsVal, List.foldl_append]
        rw [digitsVal] at h1
        rw [h1]
        simp only [List.foldl_cons, List.foldl_nil, hd.2.1]
        omega
      · intro c hc
        rcases List.mem_append.1 hc with hc | hc
        · exact h3 c hc
        · rw [List.mem_singleton.1 hc]
          exact ⟨hd.1, hd.2.2⟩

theorem takeWhile_digits {p : Char → Bool} {ds rest : List Char} (h : ∀ c ∈ ds, p c = true) (hr : ∀ c ∈ rest.head?, p c = false) :
    (ds ++ rest).takeWhile p = ds ∧ (ds ++ rest).dropWhile p = rest := by
  induction ds with
  | nil =>
    cases rest with
    | nil => exact ⟨rfl, rfl⟩
    | cons c t => have := hr c (by simp); simp [this]
  | cons d ds ih =>
    have := ih (fun c hc => h c (by simp [hc]))
    simp [h d (by simp), this]

/-- The assumptions on `scan` hold for `scanInt`. -/
theorem scanInt_ok : ScanOk scanInt := by
  have hsuf : ∀ sgn s v r, scanDigits sgn s = some (v, r) → r <:+ s ∧ r.length < s.length := by
    intro sgn s v r h
    unfold scanDigits at h
    split_ifs at h with h0
    simp only [Option.some.injEq, Prod.mk.injEq] at h
    obtain ⟨-, rfl⟩ := h
    refine ⟨List.dropWhile_suffix _, ?_⟩
    have := congrArg List.length (List.takeWhile_append_dropWhile (p := isDigitC) (l := s))
    rw [List.length_append] at this
    have := List.length_pos_iff.2 h0
    omega
  have hline : ∀ sgn l t, scanDigits sgn (l ++ '\n' :: t) = (scanDigits sgn l).map (fun p => (p.1, p.2 ++ '\n' :: t)) := by
    intro sgn l t
    have key : (l ++ '\n' :: t).takeWhile isDigitC = l.takeWhile isDigitC ∧ (l ++ '\n' :: t).dropWhile isDigitC = l.dropWhile isDigitC ++ '\n' :: t := by
      induction l with
      | nil =>
        have : isDigitC '\n' = false := by decide
        simp [this]
      | cons c l ih =>
        by_cases hc : isDigitC c = true
        · simp [hc, ih]
        · simp [hc]
    unfold scanDigits
    rw [key.1, key.2]
    split_ifs <;> rfl
  constructor
  · intro s v r h
    cases s with
    | nil => cases h
    | cons c t =>
      rw [scanInt] at h
      split_ifs at h
      · have := hsuf _ _ _ _ h
        exact ⟨this.1.trans (List.suffix_cons _ _), by simp; omega⟩
      · have := hsuf _ _ _ _ h
        exact ⟨this.1.trans (List.suffix_cons _ _), by simp; omega⟩
      · exact hsuf _ _ _ _ h
  · intro l t hl
    cases l with
    | nil =>
      have : isDigitC '\n' = false := by decide
      simp [scanInt, scanDigits, this]
    | cons c l =>
      rw [List.cons_append, scanInt, scanInt]
      split_ifs
      · exact hline _ _ _
      · exact hline _ _ _
      · exact hline 1 (c :: l) t

/-- The assumptions on `fmt` hold for `printInt`, and integers are read back exactly. -/
theorem printInt_ok : FmtOk printInt scanInt id := by
  constructor
  intro z
  obtain ⟨h1, h2, h3⟩ := decimal_spec z.natAbs z.natAbs le_rfl
  have hsp : isDigitC ' ' = false := by decide
  have hscan : ∀ sgn rest, (∀ c ∈ rest.head?, c = ' ') → scanDigits sgn (decimal z.natAbs z.natAbs ++ rest) = some (sgn * (z.natAbs : ℤ), rest) := by
    intro sgn rest hr
    obtain ⟨e1, e2⟩ := takeWhile_digits (fun c hc => (h3 c hc).1) (rest := rest) (fun c hc => by rw [hr c hc]; exact hsp)
    rw [scanDigits, e1, e2, if_neg h2, h1]
  refine ⟨intText z, _, rfl, ?_, ?_, fun c hc => List.eq_of_mem_replicate hc, ?_⟩
  · unfold intText
    split_ifs
    · exact ⟨'-', _, rfl, by decide⟩
    · obtain ⟨c, t, e⟩ := List.exists_cons_of_ne_nil h2
      exact ⟨c, t, by simpa using e, (h3 c (by simp [e])).2.2.2.2⟩
  · unfold intText
    intro c hc
    rcases List.mem_append.1 hc with hc | hc
    · split_ifs at hc
      · rw [List.mem_singleton.1 hc]; decide
      · simp at hc
    · exact (h3 c hc).2.1
  · intro rest hr
    unfold intText
    split_ifs with hz
    · rw [List.append_assoc, List.singleton_append, scanInt, if_pos rfl, hscan _ _ hr, id]
      congr 2
      omega
    · obtain ⟨c, t, e⟩ := List.exists_cons_of_ne_nil h2
      have hc := h3 c (by simp [e])
      have := hscan 1 rest hr
      rw [List.nil_append]
      rw [e, List.cons_append] at this ⊢
      rw [scanInt, if_neg hc.2.2.1, if_neg hc.2.2.2.1, this, id]
      congr 2
      omega

/-- Round trip for integers, with no assumption. -/
theorem C31_round_trip_int {n : ℕ} (hn : 0 < n) {sets : List (List (List ℤ))} (hsets : sets ≠ []) (hne : ∀ s ∈ sets, s ≠ [])
    (hrows : ∀ s ∈ sets, ∀ r ∈ s, r.length = n)
    {data : ℕ → ℤ} (hdata : ∀ i (h : i < sets.flatten.length), (List.range n).map (fun j => data (n * i + j)) = sets.flatten[i])
    {text : List Char} (htext : text = writeSets printInt data n (cumFrom 0 (sets.map List.length)) 0) {fuel : ℕ} (hfuel : text.length + 2 < fuel) :
    readData scanInt fuel 0 [] [] text = some ⟨0, n, cumFrom 0 (sets.map List.length), sets.flatten.flatten⟩ := by
  rw [C31_round_trip scanInt_ok printInt_ok hn hsets hne hrows hdata htext hfuel, List.map_id]

/-- Two sets, of two points and of one point. -/
example : readData scanInt 200 0 [] [] (writeSets printInt (fun i => [1, -2, 30, 4, 5, 0].getD i 0) 2 [2, 3] 0) = some ⟨0, 2, [2, 3], [1, -2, 30, 4, 5, 0]⟩ :=
  C31_round_trip_int (sets := [[[1, -2], [30, 4]], [[5, 0]]]) (by decide) (by decide) (by decide) (by decide) (by decide) rfl (by decide +kernel)

/-- A file with a comment, a tab and an extra blank line. -/
example : readDatasets scanInt (fun n => (n : ℤ)) 60 "# a\n1\t2 \n3 4\n\n \n-5 +6".toList = some (.ok (3, [[1, 2, 1], [3, 4, 1], [-5, 6, 2]])) := by decide +kernel

/-- Errors. -/
example : (readData scanInt 60 0 [] [] "1 2\n3\n".toList).map RdOut.code = some (-5) ∧ (readData scanInt 60 0 [] [] "1 2\n3 x\n".toList).map RdOut.code = some (-4) ∧
    (readData scanInt 60 0 [] [] "# 1\n\n".toList).map RdOut.code = some (-1) ∧ (readDatasetsR scanInt 60 "# 1\n\n".toList).isNone = true := by decide +kernel

end Moo
