import Verif.Model.FsMain
import Verif.Lemmas.Getopt

/-!
# Lemmas about programs on files
-/

set_option autoImplicit false
set_option linter.unusedSectionVars false

namespace Moo

variable {σ X : Type*}

/-- The loop over the files, on their contents: the exit status and what was written for each file that was looked at. -/
def pureFiles (step : σ → List Char → FileStep σ X) (final : σ → ℕ) : σ → List (List Char) → Option (ℕ × List (Option X))
  | s, [] => some (final s, [])
  | s, text :: texts =>
    match step s text with
    | .undefined => none
    | .exit w => some (1, [w])
    | .done s w => (pureFiles step final s texts).map fun r => (r.1, w :: r.2)

/-- All that is written. -/
def emits (render : X → List Char) (dest : Word → Option Word) : List Word → List (Option X) → List Char × Files → List Char × Files
  | name :: names, w :: ws, out => emits render dest names ws (emit render (dest name) w out)
  | _, _, out => out

theorem emits_nil (render : X → List Char) (dest : Word → Option Word) (names : List Word) (out : List Char × Files) : emits render dest names [] out = out := by cases names <;> rfl

theorem emit_other (render : X → List Char) (d : Option Word) (w : Option X) (out : List Char × Files) (n : Word) (h : d ≠ some n) : (emit render d w out).2 n = out.2 n := by
  cases w with
  | none => rfl
  | some x =>
    cases d with
    | none => rfl
    | some m =>
      have : n ≠ m := fun e => h (by rw [e])
      simp [emit, putFile, this]

/-- A file changes only if it is the output file of one of the names. -/
theorem runFiles_frame (step : σ → List Char → FileStep σ X) (final : σ → ℕ) (render : X → List Char) (dest : Word → Option Word) (names : List Word) :
    ∀ (s : σ) (out : List Char × Files) (status : ℕ) (stdout : List Char) (files : Files), runFiles step final render dest s names out = .exit status stdout files →
      ∀ n, (∀ name ∈ names, dest name ≠ some n) → files n = out.2 n := by
  induction names with
  | nil =>
    intro s out status stdout files h n _
    simp only [runFiles, RunOut.exit.injEq] at h
    rw [← h.2.2]
  | cons name names ih =>
    intro s out status stdout files h n hn
    have h1 := hn name (by simp)
    rw [runFiles] at h
    cases ht : out.2 name with
    | none =>
      rw [ht] at h
      simp only [RunOut.exit.injEq] at h
      rw [← h.2.2]
    | some text =>
      rw [ht] at h
      simp only at h
      cases hs : step s text with
      | undefined => rw [hs] at h; simp at h
      | exit w =>
        rw [hs] at h
        simp only [RunOut.exit.injEq] at h
        rw [← h.2.2, emit_other _ _ _ _ _ h1]
      | done s' w =>
        rw [hs] at h
        simp only at h
        rw [ih _ _ _ _ _ h n fun m hm => hn m (by simp [hm]), emit_other _ _ _ _ _ h1]

theorem contents_congr {files files' : Files} {names : List Word} {texts : List (List Char)} (h : Contents files names texts) (he : ∀ n ∈ names, files' n = files n) : Contents files' names texts := by
  induction h with
  | nil => exact .nil
  | @cons n t ns ts h1 h2 ih => exact .cons (by rw [he n (by simp), h1]) (ih fun m hm => he m (by simp [hm]))

/-- If no output overwrites a later input, the loop is the loop on the contents. -/
theorem runFiles_eq (step : σ → List Char → FileStep σ X) (final : σ → ℕ) (render : X → List Char) (dest : Word → Option Word) (names : List Word) :
    ∀ (texts : List (List Char)) (s : σ) (out : List Char × Files), Contents out.2 names texts → (names.Pairwise fun f g => dest f ≠ some g) →
      runFiles step final render dest s names out = match pureFiles step final s texts with
        | none => .undefined
        | some (status, ws) => .exit status (emits render dest names ws out).1 (emits render dest names ws out).2 := by
  induction names with
  | nil =>
    intro texts s out h _
    cases h
    rfl
  | cons name names ih =>
    intro texts s out h hp
    cases h with
    | @cons _ text _ texts h1 h2 =>
      rw [List.pairwise_cons] at hp
      rw [runFiles, h1, pureFiles]
      simp only
      cases hs : step s text with
      | undefined => rfl
      | exit w => simp [emits, emits_nil]
      | done s' w =>
        simp only
        rw [ih texts s' _ (contents_congr h2 fun n hn => emit_other _ _ _ _ _ (hp.1 n hn)) hp.2]
        cases pureFiles step final s' texts with
        | none => rfl
        | some r => rfl

theorem emit_congr (render : X → List Char) (d : Option Word) (w : Option X) (out out' : List Char × Files) (h1 : out.1 = out'.1) (P : Word → Prop) (h2 : ∀ n, P n → out.2 n = out'.2 n) :
    (emit render d w out).1 = (emit render d w out').1 ∧ ∀ n, P n → (emit render d w out).2 n = (emit render d w out').2 n := by
  cases w with
  | none => exact ⟨h1, h2⟩
  | some x =>
    cases d with
    | none => exact ⟨by simp [emit, h1], h2⟩
    | some m =>
      refine ⟨h1, fun n hn => ?_⟩
      simp only [emit, putFile]
      split_ifs
      · rfl
      · exact h2 n hn

/-- Only the named files are read. -/
theorem runFiles_reads (step : σ → List Char → FileStep σ X) (final : σ → ℕ) (render : X → List Char) (dest : Word → Option Word) (P : Word → Prop) (names : List Word) :
    ∀ (s : σ) (out out' : List Char × Files), out.1 = out'.1 → (∀ n ∈ names, P n) → (∀ n, P n → out.2 n = out'.2 n) →
      SameRun (runFiles step final render dest s names out) (runFiles step final render dest s names out') := by
  induction names with
  | nil => intro s out out' h1 _ h2; exact ⟨rfl, h1⟩
  | cons name names ih =>
    intro s out out' h1 hP h2
    rw [runFiles, runFiles, ← h2 name (hP name (by simp))]
    cases out.2 name with
    | none => exact ⟨rfl, h1⟩
    | some text =>
      simp only
      cases step s text with
      | undefined => trivial
      | exit w => exact ⟨rfl, (emit_congr render _ w _ _ h1 P h2).1⟩
      | done s' w => exact ih _ _ _ (emit_congr render _ w _ _ h1 P h2).1 (fun n hn => hP n (by simp [hn])) (emit_congr render _ w _ _ h1 P h2).2

/-- After a file that does not exist nothing but failure is possible. -/
theorem runFiles_missing (step : σ → List Char → FileStep σ X) (final : σ → ℕ) (render : X → List Char) (dest : Word → Option Word) (missing : Word) (names : List Word) :
    ∀ (s : σ) (out : List Char × Files) (status : ℕ) (stdout : List Char) (files : Files), missing ∈ names → out.2 missing = none → (∀ f ∈ names, dest f ≠ some missing) →
      runFiles step final render dest s names out = .exit status stdout files → status = 1 := by
  induction names with
  | nil => intro s out status stdout files h; simp at h
  | cons name names ih =>
    intro s out status stdout files hm h0 hd h
    rw [runFiles] at h
    cases ht : out.2 name with
    | none =>
      rw [ht] at h
      simp only [RunOut.exit.injEq] at h
      exact h.1.symm
    | some text =>
      rw [ht] at h
      simp only at h
      cases hs : step s text with
      | undefined => rw [hs] at h; simp at h
      | exit w =>
        rw [hs] at h
        simp only [RunOut.exit.injEq] at h
        exact h.1.symm
      | done s' w =>
        rw [hs] at h
        simp only at h
        refine ih _ _ _ _ _ ?_ ?_ (fun f hf => hd f (by simp [hf])) h
        · rcases List.mem_cons.1 hm with rfl | hm
          · rw [h0] at ht; cases ht
          · exact hm
        · rw [emit_other _ _ _ _ _ (hd name (by simp)), h0]

theorem pureFiles_length (step : σ → List Char → FileStep σ X) (final : σ → ℕ) (texts : List (List Char)) : ∀ (s : σ) (status : ℕ) (ws : List (Option X)),
    pureFiles step final s texts = some (status, ws) → ws.length ≤ texts.length := by
  induction texts with
  | nil => intro s status ws h; simp [pureFiles] at h; simp [← h.2]
  | cons text texts ih =>
    intro s status ws h
    rw [pureFiles] at h
    cases hs : step s text with
    | undefined => rw [hs] at h; simp at h
    | exit w => rw [hs] at h; simp only [Option.some.injEq, Prod.mk.injEq] at h; rw [← h.2]; simp
    | done s' w =>
      rw [hs] at h
      simp only [Option.map_eq_some_iff, Prod.mk.injEq] at h
      obtain ⟨⟨a, b⟩, h1, rfl, rfl⟩ := h
      simpa using ih _ _ _ h1

/-- If a step that goes on has always written something, all but the last file have an output. -/
theorem pureFiles_before (step : σ → List Char → FileStep σ X) (final : σ → ℕ) (hd : ∀ s t s', step s t ≠ .done s' none) (texts : List (List Char)) : ∀ (s : σ) (status : ℕ) (ws : List (Option X)),
    pureFiles step final s texts = some (status, ws) → ∀ (k : ℕ) (y : Option X), ws[k + 1]? = some y → ∃ x, ws[k]? = some (some x) := by
  induction texts with
  | nil => intro s status ws h k y hk; simp [pureFiles] at h; rw [h.2] at hk; cases k <;> simp at hk
  | cons text texts ih =>
    intro s status ws h k y hk
    rw [pureFiles] at h
    cases hs : step s text with
    | undefined => rw [hs] at h; simp at h
    | exit w => rw [hs] at h; simp at h; simp [← h.2] at hk
    | done s' w =>
      rw [hs] at h
      simp only [Option.map_eq_some_iff, Prod.mk.injEq] at h
      obtain ⟨⟨a, b⟩, h1, rfl, rfl⟩ := h
      cases k with
      | zero =>
        cases w with
        | none => exact absurd hs (hd _ _ _)
        | some x => exact ⟨x, rfl⟩
      | succ k => exact ih _ _ _ h1 k y hk

/-- What is written comes from a step. -/
theorem pureFiles_step (step : σ → List Char → FileStep σ X) (final : σ → ℕ) (P : List Char → Prop) (hp : ∀ s t x, (step s t = .exit (some x) ∨ ∃ s', step s t = .done s' (some x)) → P t)
    (texts : List (List Char)) : ∀ (s : σ) (status : ℕ) (ws : List (Option X)),
    pureFiles step final s texts = some (status, ws) → ∀ (k : ℕ) (x : X) (text : List Char), ws[k]? = some (some x) → texts[k]? = some text → P text := by
  induction texts with
  | nil => intro s status ws h k x text hk ht; simp at ht
  | cons t texts ih =>
    intro s status ws h k x text hk ht
    rw [pureFiles] at h
    cases hs : step s t with
    | undefined => rw [hs] at h; simp at h
    | exit w =>
      rw [hs] at h
      simp at h
      rw [← h.2] at hk
      cases k with
      | zero =>
        simp at hk ht
        subst ht hk
        exact hp _ _ _ (Or.inl hs)
      | succ k => simp at hk
    | done s' w =>
      rw [hs] at h
      simp only [Option.map_eq_some_iff, Prod.mk.injEq] at h
      obtain ⟨⟨a, b⟩, h1, rfl, rfl⟩ := h
      cases k with
      | zero =>
        simp at hk ht
        subst ht hk
        exact hp _ _ _ (Or.inr ⟨_, hs⟩)
      | succ k => exact ih _ _ _ h1 k x text hk ht

/-- Without output files all goes to the standard output. -/
theorem emits_stdout (render : X → List Char) (names : List Word) : ∀ (ws : List (Option X)) (out : List Char × Files), ws.length ≤ names.length →
    emits render (fun _ => none) names ws out = (out.1 ++ ws.flatMap fun w => (w.map render).getD [], out.2) := by
  induction names with
  | nil => intro ws out h; cases ws with | nil => simp [emits] | cons w ws => simp at h
  | cons name names ih =>
    intro ws out h
    cases ws with
    | nil => simp [emits]
    | cons w ws =>
      rw [emits, ih ws _ (by simpa using h)]
      cases w with
      | none => simp [emit]
      | some x => simp [emit]

theorem emits_stdout_none (render : X → List Char) (suffix : Word) (names : List Word) : ∀ (ws : List (Option X)) (out : List Char × Files),
    (emits render (fun name => some (name ++ suffix)) names ws out).1 = out.1 := by
  induction names with
  | nil => intro ws out; cases ws <;> rfl
  | cons name names ih =>
    intro ws out
    cases ws with
    | nil => rfl
    | cons w ws =>
      rw [emits, ih]
      cases w <;> rfl

/-- With output files each has what was written for it. -/
theorem emits_written (render : X → List Char) (suffix : Word) (names : List Word) : ∀ (ws : List (Option X)) (out : List Char × Files), names.Nodup →
    Written names suffix (fun k => (ws[k]?.join).map render) out.2 (emits render (fun name => some (name ++ suffix)) names ws out).2 := by
  induction names with
  | nil => intro ws out _; exact ⟨by simp, fun n _ => by cases ws <;> rfl⟩
  | cons name names ih =>
    intro ws out hn
    rw [List.nodup_cons] at hn
    cases ws with
    | nil => exact ⟨by simp [emits], fun n _ => rfl⟩
    | cons w ws =>
      have h := ih ws (emit render (some (name ++ suffix)) w out) hn.2
      refine ⟨?_, ?_⟩
      · intro k f hf
        cases k with
        | zero =>
          simp at hf
          subst hf
          rw [emits, h.other _ (fun g hg e => hn.1 (by rw [List.append_cancel_right e]; exact hg))]
          cases w <;> simp [emit, putFile]
        | succ k =>
          have hk : names[k]? = some f := by simpa using hf
          rw [emits, h.output k f hk]
          rw [emit_other]
          · simp
          · intro e
            have : name = f := List.append_cancel_right (Option.some.inj e)
            exact hn.1 (this ▸ List.mem_of_getElem? hk)
      · intro n h1
        rw [emits, h.other n (fun g hg => h1 g (by simp [hg])), emit_other]
        intro e
        exact h1 name (by simp) (Option.some.inj e).symm

theorem runStdin_files (step : σ → List Char → FileStep σ X) (final : σ → ℕ) (render : X → List Char) (s : σ) (stdin : List Char) (files : Files) (status : ℕ) (out : List Char)
    (files' : Files) (h : runStdin step final render s stdin files = .exit status out files') : files' = files := by
  unfold runStdin at h
  cases h1 : step s stdin <;> rw [h1] at h <;> simp at h
  · exact h.2.2.symm
  · exact h.2.2.symm

theorem runStdin_reads (step : σ → List Char → FileStep σ X) (final : σ → ℕ) (render : X → List Char) (s : σ) (stdin : List Char) (files files' : Files) :
    SameRun (runStdin step final render s stdin files) (runStdin step final render s stdin files') := by
  unfold runStdin
  cases h1 : step s stdin with
  | undefined => trivial
  | exit w => cases w <;> exact ⟨rfl, rfl⟩
  | done s w => cases w <;> exact ⟨rfl, rfl⟩

/-! ### Values -/

/-- The values written for the files, from the file numbered `k`. -/
def tagged {W : Type*} (dest : ℕ → Option ℕ) : ℕ → List (Option (List W)) → List (Option ℕ × W)
  | _, [] => []
  | k, w :: ws => (w.getD []).map (fun v => (dest k, v)) ++ tagged dest (k + 1) ws

section
variable {W : Type*}

theorem tagged_snd (dest : ℕ → Option ℕ) (ws : List (Option (List W))) : ∀ k, (tagged dest k ws).map Prod.snd = ws.flatMap fun w => w.getD [] := by
  induction ws with
  | nil => intro k; rfl
  | cons w ws ih => intro k; simp [tagged, ih, Function.comp_def]

theorem tagged_mem (ws : List (Option (List W))) : ∀ (k j : ℕ) (v : W), (some j, v) ∈ tagged some k ws → ∃ vs, k ≤ j ∧ ws[j - k]? = some (some vs) ∧ v ∈ vs := by
  induction ws with
  | nil => intro k j v h; simp [tagged] at h
  | cons w ws ih =>
    intro k j v h
    rw [tagged, List.mem_append] at h
    rcases h with h | h
    · simp at h
      cases w with
      | none => simp at h
      | some vs => exact ⟨vs, by omega, by simp [h.2], by simpa using h.1⟩
    · obtain ⟨vs, h1, h2, h3⟩ := ih _ _ _ h
      refine ⟨vs, by omega, ?_, h3⟩
      rw [show j - k = (j - (k + 1)) + 1 by omega]
      simpa using h2

theorem tagged_writtenTo (ws : List (Option (List W))) : ∀ (k j : ℕ), writtenTo (some (k + j)) (tagged some k ws) = (ws[j]?.join).getD [] := by
  induction ws with
  | nil => intro k j; simp [tagged, writtenTo]
  | cons w ws ih =>
    intro k j
    rw [tagged, writtenTo, List.filter_append, List.map_append, List.filter_map]
    cases j with
    | zero =>
      have h2 : (tagged some (k + 1) ws).filter (fun p => decide (p.1 = some (k + 0))) = [] := by
        rw [List.filter_eq_nil_iff]
        intro p hp
        simp only [decide_eq_true_eq]
        intro e
        obtain ⟨p1, p2⟩ := p
        simp only at e
        subst e
        have := tagged_mem ws _ _ _ hp
        obtain ⟨_, h, -⟩ := this
        omega
      rw [h2]
      simp [Function.comp_def]
    | succ j =>
      have := ih (k + 1) j
      rw [show k + 1 + j = k + (j + 1) by omega] at this
      rw [writtenTo] at this
      rw [this]
      simp [Function.comp_def]

/-- From the loop over the contents to the loop over the files. -/
theorem runFiles_values (step : σ → List Char → FileStep σ (List W)) (hd : ∀ s t s', step s t ≠ .done s' none) (readable : List Char → Prop)
    (hp : ∀ s t x, (step s t = .exit (some x) ∨ ∃ s', step s t = .done s' (some x)) → readable t)
    (fmt : W → List Char) (suffix : Option Word) (names : List Word) (texts : List (List Char)) (s : σ) (files : Files) (hc : Contents files names texts)
    (hs : ∀ x, suffix = some x → names.Nodup ∧ NoClobber names x) (p : ProgOut (Option ℕ × W))
    (h : p = match pureFiles step (fun _ => 0) s texts with
      | none => .undefined
      | some (status, ws) => .exit status (tagged (fun k => if suffix.isSome then some k else none) 0 ws)) :
    FilesOutcome fmt readable names texts suffix files p (runFiles step (fun _ => 0) (valueLines fmt) (fun name => suffix.map (name ++ ·)) s names ([], files)) := by
  have hlen : names.length = texts.length := hc.length_eq
  have hpw : names.Pairwise fun f g => suffix.map (f ++ ·) ≠ some g := by
    cases suffix with
    | none => exact List.pairwise_of_forall (by simp)
    | some x => exact (hs x rfl).2.imp fun h e => h (Option.some.inj e)
  rw [runFiles_eq step _ _ _ names texts s ([], files) hc hpw]
  subst h
  cases hpf : pureFiles step (fun _ => 0) s texts with
  | none => cases suffix <;> rfl
  | some r =>
    obtain ⟨status, ws⟩ := r
    have hl := pureFiles_length _ _ _ _ _ _ hpf
    cases suffix with
    | none =>
      simp only [FilesOutcome, Option.map_none]
      rw [emits_stdout _ _ _ _ (by omega), tagged_snd]
      congr 1
      simp only [List.nil_append, valueLines]
      rw [List.flatMap_assoc]
      congr 1
      funext w
      cases w with
      | none => rfl
      | some vs => rfl
    | some x =>
      simp only [FilesOutcome, Option.map_some, Option.isSome_some, if_true]
      refine ⟨fun k => (ws[k]?.join).isSome, _, by rw [emits_stdout_none], ?_, ?_, ?_, ?_⟩
      · have := emits_written (valueLines fmt) x names ws ([], files) (hs x rfl).1
        have he : (fun k => if ((ws[k]?.join).isSome : Bool) = true then some (valueLines fmt (writtenTo (some k) (tagged some 0 ws))) else none) =
            fun k => (ws[k]?.join).map (valueLines fmt) := by
          funext k
          have h2 := tagged_writtenTo ws 0 k
          rw [Nat.zero_add] at h2
          rw [h2]
          cases ws[k]?.join <;> simp
        rw [← he] at this
        exact this
      · intro k v hv
        obtain ⟨vs, -, h2, -⟩ := tagged_mem ws 0 k v hv
        simp only [Nat.sub_zero] at h2
        simp [h2]
      · intro k hk
        cases hk1 : ws[k + 1]? with
        | none => simp [hk1] at hk
        | some y =>
          obtain ⟨z, hz⟩ := pureFiles_before step _ hd texts s status ws hpf k y hk1
          simp [hz]
      · intro k text hk ht
        cases hk1 : ws[k]? with
        | none => simp [hk1] at hk
        | some y =>
          cases y with
          | none => simp [hk1] at hk
          | some z => exact pureFiles_step step _ readable hp texts s status ws hpf k z text hk1 ht

/-- The standard input. -/
theorem runStdin_values (step : σ → List Char → FileStep σ (List W)) (fmt : W → List Char) (s : σ) (stdin : List Char) (files : Files) (dest : ℕ → Option ℕ) (p : ProgOut (Option ℕ × W))
    (h : p = match pureFiles step (fun _ => 0) s [stdin] with
      | none => .undefined
      | some (status, ws) => .exit status (tagged dest 0 ws)) :
    runStdin step (fun _ => 0) (valueLines fmt) s stdin files = stdoutRun fmt files p := by
  subst h
  simp only [pureFiles, runStdin]
  cases hstep : step s stdin with
  | undefined => rfl
  | exit w =>
    cases w with
    | none => simp [stdoutRun, emit, tagged, valueLines]
    | some vs => simp [stdoutRun, emit, tagged, valueLines, Function.comp_def]
  | done s w =>
    cases w with
    | none => simp [stdoutRun, emit, tagged, valueLines]
    | some vs => simp [stdoutRun, emit, tagged, valueLines, Function.comp_def]

end

/-! ### Options -/

section
variable {I : Type}

/-- The cases of some options in turn. -/
def cliSteps (step : σ → I × Option Word → CliStep σ) : σ → List (I × Option Word) → CliStep σ
  | s, [] => .next s
  | s, o :: os =>
    match step s o with
    | .undefined => .undefined
    | .exit status out => .exit status out
    | .next s => cliSteps step s os

theorem cliRun_append (step : σ → I × Option Word → CliStep σ) (os os' : List (I × Option Word)) (e : CliEnd) : ∀ s, cliRun step s (os ++ os') e = match cliSteps step s os with
    | .undefined => .undefined
    | .exit status out => .exit status out
    | .next s => cliRun step s os' e := by
  induction os with
  | nil => intro s; rfl
  | cons o os ih =>
    intro s
    rw [List.cons_append, cliRun, cliSteps]
    cases h : step s o with
    | undefined => rfl
    | exit status out => rfl
    | next s' => exact ih s'

/-- An option after others. -/
def andThen (r : CliStep σ) (f : σ → CliStep σ) : CliStep σ :=
  match r with
  | .undefined => .undefined
  | .exit status out => .exit status out
  | .next s => f s

theorem cliSteps_append (step : σ → I × Option Word → CliStep σ) (os os' : List (I × Option Word)) : ∀ s, cliSteps step s (os ++ os') = andThen (cliSteps step s os) fun s => cliSteps step s os' := by
  induction os with
  | nil => intro s; rfl
  | cons o os ih =>
    intro s
    rw [List.cons_append, cliSteps, cliSteps]
    cases h : step s o with
    | undefined => rfl
    | exit status out => rfl
    | next s' => exact ih s'

theorem cliRun_end (step : σ → I × Option Word → CliStep σ) (os : List (I × Option Word)) (e : CliEnd) (s : σ) : cliRun step s os e = match cliSteps step s os with
    | .undefined => .undefined
    | .exit status out => .exit status out
    | .next s => cliRun step s [] e := by
  have := cliRun_append step os [] e s
  rwa [List.append_nil] at this

/-- Either one of the options ends the program, or all are read. -/
theorem cliRun_cases (step : σ → I × Option Word → CliStep σ) (e : CliEnd) (os : List (I × Option Word)) : ∀ s,
    (∃ o s', o ∈ os ∧ step s' o = .undefined ∧ cliRun step s os e = .undefined) ∨ (∃ o s' status out, o ∈ os ∧ step s' o = .exit status out ∧ cliRun step s os e = .exit status out) ∨
      ∃ s', cliSteps step s os = .next s' ∧ cliRun step s os e = cliRun step s' [] e := by
  induction os with
  | nil => intro s; exact Or.inr (Or.inr ⟨s, rfl, rfl⟩)
  | cons o os ih =>
    intro s
    rw [cliRun, cliSteps]
    cases h : step s o with
    | undefined => exact Or.inl ⟨o, s, by simp, h, rfl⟩
    | exit status out => exact Or.inr (Or.inl ⟨o, s, status, out, by simp, h, rfl⟩)
    | next s' =>
      rcases ih s' with ⟨o', s'', h1, h2, h3⟩ | ⟨o', s'', st, out, h1, h2, h3⟩ | h
      · exact Or.inl ⟨o', s'', by simp [h1], h2, h3⟩
      · exact Or.inr (Or.inl ⟨o', s'', st, out, by simp [h1], h2, h3⟩)
      · exact Or.inr (Or.inr h)

/-- An invariant of the options. -/
theorem cliSteps_inv (step : σ → I × Option Word → CliStep σ) (P : List (I × Option Word) → σ → Prop) (s : σ) (h0 : P [] s)
    (hP : ∀ os o c c', P os c → step c o = .next c' → P (os ++ [o]) c') (os : List (I × Option Word)) : ∀ c, cliSteps step s os = .next c → P os c := by
  induction os using List.reverseRecOn with
  | nil => intro c h; simp only [cliSteps, CliStep.next.injEq] at h; exact h ▸ h0
  | append_singleton os o ih =>
    intro c h
    rw [cliSteps_append] at h
    cases h1 : cliSteps step s os with
    | undefined => rw [h1] at h; simp [andThen] at h
    | exit status out => rw [h1] at h; simp [andThen] at h
    | next c' =>
      rw [h1] at h
      simp only [andThen, cliSteps] at h
      cases h2 : step c' o with
      | undefined => rw [h2] at h; simp at h
      | exit status out => rw [h2] at h; simp at h
      | next c'' =>
        rw [h2] at h
        simp only [CliStep.next.injEq] at h
        exact h ▸ hP os o c' c'' (ih c' h1) h2

variable [DecidableEq I]

theorem lastArg_append (i j : I) (a : Option Word) (os : List (I × Option Word)) : lastArg i (os ++ [(j, a)]) = if j = i then a else lastArg i os := by
  unfold lastArg
  rw [List.filter_append]
  by_cases h : j = i
  · simp [h]
  · simp [h]

theorem hasOpt_append (i j : I) (a : Option Word) (os : List (I × Option Word)) : hasOpt i (os ++ [(j, a)]) = (hasOpt i os || decide (j = i)) := by
  simp [hasOpt]

end

end Moo
