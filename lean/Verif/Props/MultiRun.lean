import Verif.Model.MultiRun
import Verif.Props.TransData
/-!
# C185: repeating an experiment on all GPUs
-/
namespace Verif

theorem pySplit_word (w l : List Char) (h1 : w ≠ []) (h2 : ∀ c ∈ w, c.isWhitespace = false) : pySplit (w ++ ' ' :: l) = w :: pySplit l := by
  unfold pySplit
  rw [splitOnP_word w h2 ' ' (by decide), List.filter_cons_of_pos (by simpa using h1)]

theorem pySplit_one (w : List Char) (h1 : w ≠ []) (h2 : ∀ c ∈ w, c.isWhitespace = false) : pySplit w = [w] := by
  unfold pySplit
  rw [splitOnP_last w h2, List.filter_cons_of_pos (by simpa using h1)]
  rfl

theorem pySplit_join (argv : List (List Char)) (l : List Char) (h : ∀ w ∈ argv, w ≠ [] ∧ ∀ c ∈ w, c.isWhitespace = false) :
    pySplit (joinBlank argv ++ ' ' :: l) = argv ++ pySplit l := by
  induction argv with
  | nil => exact pySplit_blank [' '] l (by simp)
  | cons w ws ih =>
    obtain ⟨h1, h2⟩ := h w List.mem_cons_self
    cases ws with
    | nil => exact pySplit_word w l h1 h2
    | cons v vs =>
      show pySplit ((w ++ ' ' :: joinBlank (v :: vs)) ++ ' ' :: l) = _
      rw [List.append_assoc, List.cons_append, pySplit_word w _ h1 h2, ih fun w hw => h w (List.mem_cons_of_mem _ hw)]
      rfl

theorem digits_space (n : ℕ) : ∀ c ∈ Nat.toDigits 10 n, c.isWhitespace = false := by
  intro c hc
  have h := Nat.isDigit_of_mem_toDigits (by decide) (by decide) hc
  rw [Char.isWhitespace]
  by_contra hn
  simp only [Bool.not_eq_false, Bool.or_eq_true, decide_eq_true_eq] at hn
  rcases hn with ((rfl | rfl) | rfl) | rfl <;> revert h <;> decide

/-- **C185** (the runs) If no argument is empty or has white space (or another character special to the shell), there is one run for every GPU, with its arguments followed by its
own name, GPU and seed. -/
theorem C185_runs_partial (argv : List (List Char)) (base : ℕ) (outdir : List Char) (n : ℕ) (hn : 0 < n)
    (hargv : ∀ w ∈ argv, w ≠ [] ∧ ∀ c ∈ w, c.isWhitespace = false) (hout : ∀ c ∈ outdir, c.isWhitespace = false) :
    ∃ cmds, multiRun argv base outdir n = .ok cmds ∧ cmds.length = n ∧ ∀ i (h : i < cmds.length), pySplit cmds[i] =
      ["python3".toList] ++ argv ++ ["--name=".toList ++ Nat.toDigits 10 i, "--gpus=".toList ++ Nat.toDigits 10 i, "--seed=".toList ++ Nat.toDigits 10 (base + i),
        "--out-dir=".toList ++ outdir] := by
  refine ⟨_, if_neg (by omega), by simp, ?_⟩
  intro i h
  have hi : i < n := by simpa using h
  rw [List.getElem_map, List.getElem_range, Nat.mod_eq_of_lt hi]
  have hsp : ∀ (a b : List Char), (∀ c ∈ a, c.isWhitespace = false) → (∀ c ∈ b, c.isWhitespace = false) → ∀ c ∈ a ++ b, c.isWhitespace = false := by
    intro a b ha hb c hc
    rcases List.mem_append.1 hc with h | h
    · exact ha c h
    · exact hb c h
  have e : runCommand argv base outdir i i = "python3".toList ++ ' ' :: (joinBlank argv ++ ' ' :: (("--name=".toList ++ Nat.toDigits 10 i) ++ ' ' ::
      (("--gpus=".toList ++ Nat.toDigits 10 i) ++ ' ' :: (("--seed=".toList ++ Nat.toDigits 10 (base + i)) ++ ' ' :: ("--out-dir=".toList ++ outdir))))) := by
    unfold runCommand
    have e1 : "python3 ".toList = "python3".toList ++ [' '] := by decide
    have e2 : " --name=".toList = ' ' :: "--name=".toList := by decide
    have e3 : " --gpus=".toList = ' ' :: "--gpus=".toList := by decide
    have e4 : " --seed=".toList = ' ' :: "--seed=".toList := by decide
    have e5 : " --out-dir=".toList = ' ' :: "--out-dir=".toList := by decide
    rw [e1, e2, e3, e4, e5]
    simp only [List.append_assoc, List.cons_append, List.nil_append]
  have hl : ∀ s ∈ ["--name=", "--gpus=", "--seed=", "--out-dir=", "python3"], s.toList ≠ [] ∧ ∀ c ∈ s.toList, c.isWhitespace = false := by decide
  have hne : ∀ s ∈ ["--name=", "--gpus=", "--seed=", "--out-dir=", "python3"], ∀ l : List Char, s.toList ++ l ≠ [] := by
    intro s hs l h
    exact (hl s hs).1 (List.append_eq_nil_iff.1 h).1
  rw [e, pySplit_word _ _ (hl "python3" (by simp)).1 (hl "python3" (by simp)).2, pySplit_join _ _ hargv,
    pySplit_word _ _ (hne "--name=" (by simp) _) (hsp _ _ (hl "--name=" (by simp)).2 (digits_space _)),
    pySplit_word _ _ (hne "--gpus=" (by simp) _) (hsp _ _ (hl "--gpus=" (by simp)).2 (digits_space _)),
    pySplit_word _ _ (hne "--seed=" (by simp) _) (hsp _ _ (hl "--seed=" (by simp)).2 (digits_space _)),
    pySplit_one _ (hne "--out-dir=" (by simp) _) (hsp _ _ (hl "--out-dir=" (by simp)).2 hout)]
  rfl

/-- **C185** (no GPU) Without a GPU nothing is run. -/
theorem C185_none (argv : List (List Char)) (base : ℕ) (outdir : List Char) : multiRun argv base outdir 0 = .error .value := rfl

/-- **C185, violated** (quotes): the arguments are joined by blanks without quotes, so that an argument with a blank comes as two, and an empty one not at all. -/
theorem C185_violated_quotes : (multiRun ["x.py".toList, "a b".toList, []] 1000 "o".toList 1).map (·.map pySplit) =
    .ok [["python3".toList, "x.py".toList, "a".toList, "b".toList, "--name=0".toList, "--gpus=0".toList, "--seed=1000".toList, "--out-dir=o".toList]] := by
  decide +kernel

example : (multiRun ["x.py".toList, "-j=1".toList] 7 "o".toList 2).map (·.map pySplit) =
    .ok [["python3".toList, "x.py".toList, "-j=1".toList, "--name=0".toList, "--gpus=0".toList, "--seed=7".toList, "--out-dir=o".toList],
      ["python3".toList, "x.py".toList, "-j=1".toList, "--name=1".toList, "--gpus=1".toList, "--seed=8".toList, "--out-dir=o".toList]] := by
  decide +kernel

end Verif
