import Verif.Lemmas.Cli
import Verif.Props.IoWrite

/-!
# Concrete texts

A checker for `TextSets`, used to show on concrete texts that the hypotheses of the theorems about the programs can be met.
-/

set_option autoImplicit false

namespace Moo

variable {V W : Type*}

/-- The numbers of a line. -/
def parseNumbers (scan : NumScan V) : ℕ → List Char → Option (List V)
  | 0, _ => none
  | fuel + 1, l =>
    if l.all isWs then some []
    else
      match scan (l.dropWhile isWs) with
      | none => none
      | some (v, r) => (parseNumbers scan fuel r).map (v :: ·)

theorem parseNumbers_sound {scan : NumScan V} : ∀ (fuel : ℕ) (l : List Char) (vs : List V), parseNumbers scan fuel l = some vs → Numbers scan l vs := by
  intro fuel
  induction fuel with
  | zero => intro l vs h; cases h
  | succ fuel ih =>
    intro l vs h
    rw [parseNumbers] at h
    split_ifs at h with hw
    · cases h; exact .nil l (List.all_eq_true.1 hw)
    · cases hsc : scan (l.dropWhile isWs) with
      | none => rw [hsc] at h; cases h
      | some p =>
        rw [hsc] at h
        obtain ⟨v, r⟩ := p
        cases hp : parseNumbers scan fuel r with
        | none => simp [hp] at h
        | some ws =>
          simp only [hp, Option.map_some, Option.some.injEq] at h
          subst h
          exact .cons _ _ _ _ hsc (ih _ _ hp)

/-- The meaning of a line (`none`: a bad line). -/
def parseLine (scan : NumScan V) (l : List Char) : Option (LineKind V) :=
  if l.head? = some '#' ∨ l.all isWs then some .sep else (parseNumbers scan (l.length + 1) l).map .row

theorem parseLine_sound {scan : NumScan V} {l : List Char} {k : LineKind V} (h : parseLine scan l = some k) : IsLine scan l k := by
  unfold parseLine at h
  split_ifs at h with hw
  · cases h
    rcases hw with hw | hw
    · cases l with
      | nil => cases hw
      | cons c t => simp at hw; subst hw; exact Or.inl ⟨t, rfl⟩
    · exact Or.inr (List.all_eq_true.1 hw)
  · cases hp : parseNumbers scan (l.length + 1) l with
    | none => rw [hp] at h; cases h
    | some vs =>
      rw [hp, Option.map_some, Option.some.injEq] at h
      subst h
      have := parseNumbers_sound _ _ _ hp
      refine ⟨?_, ?_, this⟩
      · rintro t rfl; exact hw (Or.inl rfl)
      · rintro rfl
        cases this with
        | nil _ h => exact hw (Or.inr (List.all_eq_true.2 h))

/-- All lines. -/
def parseLines (scan : NumScan V) : List (List Char) → Option (List (LineKind V))
  | [] => some []
  | l :: ls =>
    match parseLine scan l, parseLines scan ls with
    | some k, some ks => some (k :: ks)
    | _, _ => none

theorem parseLines_sound {scan : NumScan V} : ∀ {ls : List (List Char)} {ks : List (LineKind V)}, parseLines scan ls = some ks → List.Forall₂ (IsLine scan) ls ks := by
  intro ls
  induction ls with
  | nil => intro ks h; cases h; exact .nil
  | cons l ls ih =>
    intro ks h
    rw [parseLines] at h
    cases h1 : parseLine scan l with
    | none => rw [h1] at h; cases h
    | some k =>
      cases h2 : parseLines scan ls with
      | none => rw [h1, h2] at h; cases h
      | some ks' =>
        rw [h1, h2] at h
        cases h
        exact .cons (parseLine_sound h1) (ih h2)

/-- A separator or a row of length `n`. -/
def fineKind (n : ℕ) : LineKind V → Bool
  | .sep => true
  | .row vs => vs.length == n
  | .bad => false

/-- A row. -/
def rowKind : LineKind V → Bool
  | .row _ => true
  | _ => false

/-- The data sets of a text. -/
def checkText (scan : NumScan V) (s : List Char) (n : ℕ) : Option (List (List (List V))) :=
  match parseLines scan (textLines s) with
  | none => none
  | some ks => if (s.all fun c => c ≠ '\x0b' ∧ c ≠ '\x0c') && ks.all (fineKind n) && ks.any rowKind then some (setsOf ks) else none

theorem checkText_sound {scan : NumScan V} {s : List Char} {n : ℕ} {sets : List (List (List V))} (h : checkText scan s n = some sets) : TextSets scan s n sets := by
  unfold checkText at h
  cases hp : parseLines scan (textLines s) with
  | none => rw [hp] at h; cases h
  | some ks =>
    rw [hp] at h
    dsimp only at h
    split_ifs at h with hc
    cases h
    simp only [Bool.and_eq_true, List.all_eq_true, List.any_eq_true, decide_eq_true_eq] at hc
    obtain ⟨⟨h1, h2⟩, k, h3, h4⟩ := hc
    refine ⟨h1, ks, parseLines_sound hp, ?_, ?_, rfl⟩
    · intro k hk
      have := h2 k hk
      cases k with
      | sep => exact Or.inl rfl
      | row vs => exact Or.inr ⟨vs, rfl, by simpa [fineKind] using this⟩
      | bad => cases this
    · cases k with
      | row vs => exact ⟨vs, h3⟩
      | sep => cases h4
      | bad => cases h4

/-- The scanner of another type of numbers. -/
def scanMap (f : V → W) (scan : NumScan V) : NumScan W := fun s => (scan s).map fun p => (f p.1, p.2)

theorem scanMap_ok {scan : NumScan V} (f : V → W) (h : ScanOk scan) : ScanOk (scanMap f scan) := by
  constructor
  · intro s v r hs
    unfold scanMap at hs
    cases hp : scan s with
    | none => rw [hp] at hs; cases hs
    | some p =>
      rw [hp] at hs
      cases hs
      exact h.suffix s p.1 p.2 hp
  · intro l t hl
    unfold scanMap
    rw [h.line l t hl]
    cases scan l <;> rfl

theorem Numbers.scanMap {scan : NumScan V} (f : V → W) {l : List Char} {vs : List V} (h : Numbers scan l vs) : Numbers (scanMap f scan) l (vs.map f) := by
  induction h with
  | nil l h => exact .nil l h
  | cons l r v vs h1 _ ih => exact .cons l r _ _ (by rw [Moo.scanMap, h1]; rfl) ih

theorem NumbersArg.scanMap {scan : NumScan V} (f : V → W) {l : List Char} {vs : List V} (h : NumbersArg scan l vs) : NumbersArg (scanMap f scan) l (vs.map f) := by
  induction h with
  | nil l h => exact .nil l h
  | cons l r v vs h1 _ ih => exact .cons l r _ _ (by rw [Moo.scanMap, h1]; rfl) ih

/-- The same line with other numbers. -/
def mapKind (f : V → W) : LineKind V → LineKind W
  | .sep => .sep
  | .row vs => .row (vs.map f)
  | .bad => .bad

theorem setsAux_map (f : V → W) : ∀ (ks : List (LineKind V)) (cur : List (List V)),
    setsAux (cur.map (List.map f)) (ks.map (mapKind f)) = (setsAux cur ks).map (List.map (List.map f)) := by
  intro ks
  induction ks with
  | nil => intro cur; cases cur <;> rfl
  | cons k ks ih =>
    intro cur
    cases k with
    | row vs =>
      have := ih (cur ++ [vs])
      rw [List.map_append] at this
      exact this
    | sep =>
      cases cur with
      | nil => exact ih []
      | cons a l => exact congrArg _ (ih [])
    | bad =>
      cases cur with
      | nil => exact ih []
      | cons a l => exact congrArg _ (ih [])

theorem TextSets.scanMap {scan : NumScan V} (f : V → W) {s : List Char} {n : ℕ} {sets : List (List (List V))} (h : TextSets scan s n sets) :
    TextSets (scanMap f scan) s n (sets.map (List.map (List.map f))) := by
  obtain ⟨h1, ks, h2, h3, ⟨vs, hvs⟩, rfl⟩ := h
  refine ⟨h1, ks.map (mapKind f), ?_, ?_, ⟨vs.map f, List.mem_map.2 ⟨_, hvs, rfl⟩⟩, (setsAux_map f ks []).symm⟩
  · have hrow : ∀ vs, LineKind.row vs ∈ ks → True := fun _ _ => trivial
    have : ∀ {ls : List (List Char)} {ks : List (LineKind V)}, List.Forall₂ (IsLine scan) ls ks → (∀ k ∈ ks, k = .sep ∨ ∃ vs, k = .row vs ∧ vs.length = n) →
        List.Forall₂ (IsLine (Moo.scanMap f scan)) ls (ks.map (mapKind f)) := by
      intro ls ks h
      induction h with
      | nil => intro _; exact .nil
      | @cons l k ls ks h1 _ ih =>
        intro hf
        refine .cons ?_ (ih (fun k hk => hf k (by simp [hk])))
        rcases hf k (by simp) with rfl | ⟨vs, rfl, _⟩
        · exact h1
        · exact ⟨h1.1, by simpa using h1.2.1, h1.2.2.scanMap f⟩
    exact this h2 h3
  · intro k hk
    obtain ⟨k', hk', rfl⟩ := List.mem_map.1 hk
    rcases h3 k' hk' with rfl | ⟨vs, rfl, hl⟩
    · exact Or.inl rfl
    · exact Or.inr ⟨_, rfl, by simpa using hl⟩

/-- The checker works: two sets, with a comment. -/
example : TextSets scanInt "# a\n1 2\n2 1\n\n0 -5\n".toList 2 [[[1, 2], [2, 1]], [[0, -5]]] := checkText_sound (by decide +kernel)

end Moo
