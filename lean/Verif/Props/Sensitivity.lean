import Verif.Model.Sensitivity
import Verif.Props.Pruners
import Verif.Props.TrainLoop2
/-!
# C90: sensitivity analysis
-/
namespace Verif
open Dict

/-! ## Specification -/

/-- The weights at sparsity level `s`: the elements with fewer than `int(s · size)` elements of strictly smaller
magnitude are zero, all others keep their value. -/
def levelPruned (w : Tensor) (s : ℚ) : Tensor :=
  w.map fun x => if ((w.countP fun y => decide (|y| < |x|) : ℕ) : Int) < pyInt (s * (w.length : ℚ)) then 0 else x

/-! ## The element-wise mask -/

theorem mask_is_levelPruned {w m : Tensor} {s : ℚ} (h : createMaskLevel w s = .ok m) : tmul w m = levelPruned w s := by
  unfold createMaskLevel at h
  obtain ⟨b, hb, h⟩ := ok_bind h
  unfold bottomK at hb
  split at hb
  swap; · cases hb
  next hk =>
  injection hb with hb
  cases hg : b.getLast? with
  | none => rw [hg] at h; cases h
  | some thr =>
    rw [hg] at h
    injection h with h
    subst h; subst hb
    rw [List.length_map] at hk
    have hle : (pyInt (s * (w.length : ℚ))).toNat ≤ (w.map fun x => |x|).length := by
      rw [List.length_map]; omega
    have hge := kth_count_ge hle hg
    have hlt := kth_count_lt hle hg
    have iff : ∀ x, (((w.countP fun y => decide (|y| < |x|) : ℕ) : Int) < pyInt (s * (w.length : ℚ))) ↔ |x| ≤ thr := by
      intro x
      have e : (w.countP fun y => decide (|y| < |x|)) = (w.map fun x => |x|).countP fun y => decide (y < |x|) := by
        rw [List.countP_map]; rfl
      rw [e]
      constructor
      · intro hh
        by_contra hgt
        have hgt := not_le.1 hgt
        have : (w.map fun x => |x|).countP (fun y => decide (y ≤ thr)) ≤ (w.map fun x => |x|).countP fun y => decide (y < |x|) := by
          apply List.countP_mono_left
          intro y _ hy
          simp only [decide_eq_true_eq] at hy ⊢
          exact lt_of_le_of_lt hy hgt
        omega
      · intro hh
        have : (w.map fun x => |x|).countP (fun y => decide (y < |x|)) ≤ (w.map fun x => |x|).countP fun y => decide (y < thr) := by
          apply List.countP_mono_left
          intro y _ hy
          simp only [decide_eq_true_eq] at hy ⊢
          exact lt_of_lt_of_le hy hh
        omega
    unfold tmul createMaskThreshold levelPruned
    rw [List.zipWith_map_right, List.zipWith_self]
    apply List.map_congr_left
    intro x _
    by_cases c : |x| ≤ thr
    · rw [if_pos ((iff x).2 c), if_neg (not_lt.2 c)]; simp
    · rw [if_neg (fun hh => c ((iff x).1 hh)), if_pos (not_le.1 c)]; simp

theorem pyInt_mono {a b : ℚ} (h : a ≤ b) : pyInt a ≤ pyInt b := by
  unfold pyInt
  split <;> split
  · exact Int.floor_le_floor h
  · next h1 h2 => exact absurd (h1.trans h) h2
  · next h1 h2 =>
    have : ⌈a⌉ ≤ 0 := Int.ceil_le.2 (by push_cast; linarith)
    have : 0 ≤ ⌊b⌋ := Int.floor_nonneg.2 h2
    omega
  · exact Int.ceil_le_ceil h

/-- Number of elements of smaller magnitude. -/
def below (w : Tensor) (x : ℚ) : Int := ((w.countP fun y => decide (|y| < |x|) : ℕ) : Int)

def zap (w : Tensor) (a : Int) (x : ℚ) : ℚ := if below w x < a then 0 else x

theorem levelPruned_eq (w : Tensor) (s : ℚ) : levelPruned w s = w.map (zap w (pyInt (s * (w.length : ℚ)))) := rfl

theorem below_mono {w : Tensor} {x z : ℚ} (h : |x| ≤ |z|) : below w x ≤ below w z := by
  unfold below
  have := List.countP_mono_left (l := w) (p := fun y => decide (|y| < |x|)) (q := fun y => decide (|y| < |z|)) (by
    intro y _ hy
    simp only [decide_eq_true_eq] at hy ⊢
    exact lt_of_lt_of_le hy h)
  exact_mod_cast this

theorem zap_zap (w : Tensor) {a b : Int} (hab : a ≤ b) : (w.map (zap w a)).map (zap (w.map (zap w a)) b) = w.map (zap w b) := by
  rw [List.map_map]
  apply List.map_congr_left
  intro x _
  simp only [Function.comp]
  by_cases cx : below w x < a
  · have h0 : zap w a x = 0 := if_pos cx
    have h1 : zap w b x = 0 := if_pos (lt_of_lt_of_le cx hab)
    rw [h0, h1]
    unfold zap; split <;> rfl
  · have h0 : zap w a x = x := if_neg cx
    rw [h0]
    have e : below (w.map (zap w a)) x = below w x := by
      unfold below
      rw [List.countP_map]
      congr 1
      apply List.countP_congr
      intro z _
      simp only [Function.comp, decide_eq_true_eq]
      by_cases cz : below w z < a
      · have hzx : |z| < |x| := by
          by_contra hn
          exact cx (lt_of_le_of_lt (below_mono (not_lt.1 hn)) cz)
        have : zap w a z = 0 := if_pos cz
        rw [this]
        simp only [abs_zero]
        exact ⟨fun _ => hzx, fun _ => lt_of_le_of_lt (abs_nonneg z) hzx⟩
      · have : zap w a z = z := if_neg cz
        rw [this]
    unfold zap
    unfold zap at e
    rw [e]

/-- Pruning an already pruned tensor to a higher level is pruning the original tensor to that level. -/
theorem levelPruned_again (w : Tensor) {s t : ℚ} (hst : s ≤ t) : levelPruned (levelPruned w s) t = levelPruned w t := by
  have hk : pyInt (s * (w.length : ℚ)) ≤ pyInt (t * (w.length : ℚ)) :=
    pyInt_mono (mul_le_mul_of_nonneg_right hst (by positivity))
  have hlen : (levelPruned w s).length = w.length := by simp [levelPruned]
  rw [levelPruned_eq (levelPruned w s), hlen, levelPruned_eq, levelPruned_eq]
  exact zap_zap w hk

theorem levelPruned_zero (w : Tensor) : levelPruned w 0 = w := by
  unfold levelPruned
  have : pyInt (0 * (w.length : ℚ)) = 0 := by simp [pyInt]
  rw [this]
  conv_rhs => rw [← List.map_id w]
  apply List.map_congr_left
  intro x _
  rw [if_neg (by omega)]; rfl

/-! ## One policy, one epoch, then `mask_all_weights` -/

theorem maskAll_fold {l : List Name} {s s' : Store} (hnd : l.Nodup) (hsub : ∀ n ∈ l, n ∈ s.names)
    (hown : ∀ n ∈ l, n ∈ s.maskers.map Prod.fst) (h : l.foldlM (maskAllBody true) s = .ok s') :
    s'.maskers = s.maskers ∧ s'.params.map Prod.fst = s.params.map Prod.fst ∧
    ∀ n, s'.params.get? n = if n ∈ l then (s.params.get? n).bind fun w => (s.maskers.get? n).map fun m => m.maskTensor w
      else s.params.get? n := by
  induction l generalizing s with
  | nil => simp [pure, Except.pure] at h; subst h; simp
  | cons a l ih =>
    rw [List.foldlM_cons] at h
    obtain ⟨s1, h1, h2⟩ := ok_bind h
    obtain ⟨m, hm⟩ := Option.isSome_iff_exists.1 ((get?_isSome_iff s.maskers a).2 (hown a (by simp)))
    obtain ⟨w, hw⟩ := Option.isSome_iff_exists.1 ((get?_isSome_iff s.params a).2 (hsub a (by simp)))
    have e1 : s1 = s.setParam a (m.maskTensor w) := by
      unfold maskAllBody at h1
      rw [hm] at h1
      simp [Store.param, hw] at h1
      exact h1.symm
    have hkeys : s1.params.map Prod.fst = s.params.map Prod.fst := by
      rw [e1]; exact keys_set_of_mem _ _ _ (hsub a (by simp))
    have hmk : s1.maskers = s.maskers := by rw [e1]; rfl
    obtain ⟨i1, i2, i3⟩ := ih (List.nodup_cons.1 hnd).2 (by
        intro n hn; show n ∈ s1.params.map Prod.fst; rw [hkeys]; exact hsub n (by simp [hn]))
      (by intro n hn; rw [hmk]; exact hown n (by simp [hn])) h2
    refine ⟨i1.trans hmk, i2.trans hkeys, ?_⟩
    intro n
    rw [i3 n, hmk]
    by_cases hna : n = a
    · subst hna
      have hnl := (List.nodup_cons.1 hnd).1
      rw [if_neg hnl, if_pos (by simp), e1]
      simp [Store.setParam, get?_set_self, hw, hm]
    · have : s1.params.get? n = s.params.get? n := by
        rw [e1]; exact get?_set_ne _ _ (fun e => hna e.symm)
      rw [this]
      simp [hna]

/-- Effect of a fresh scheduler with one pruning policy: every parameter is masked with the mask its pruner sets. -/
theorem sensPrune_spec {env : Env} {f : Name → Tensor → Option Tensor → Except Err (Option Tensor)}
    (hf : ∀ t p n w o mt, env.prune t p n w o mt = f n w o) {params params' : Dict Name Tensor}
    (hnd : (params.map Prod.fst).Nodup) (h : sensPrune env params = .ok params') :
    params'.map Prod.fst = params.map Prod.fst ∧
    ∀ n w, params.get? n = some w → ∃ k, f n w none = .ok k ∧ params'.get? n = some (({ mask := k } : Masker).maskTensor w) := by
  unfold sensPrune at h
  obtain ⟨st, h1, h⟩ := ok_bind h
  obtain ⟨s2, h2, h⟩ := ok_bind h
  cases h
  have hact : (sensState params).sched.active 0 = [0] := by rfl
  unfold onEpochBegin at h1
  rw [hact] at h1
  have h1 := foldlM_single h1
  unfold policyEpochBegin at h1
  obtain ⟨⟨st0, mt⟩, h0, h1⟩ := ok_bind h1
  obtain ⟨t1, t2, t3⟩ := touch_spec h0
  simp only [t1] at h1
  have hpol : (sensState params).pols 0 = .prune {} false false := rfl
  rw [hpol] at h1
  simp only at h1
  obtain ⟨s1, h3, h1⟩ := ok_bind h1
  cases h1
  simp only at h2
  rw [t2] at h3
  have hl := pruneEpochBeginBody_local (cfg := {}) env 0 false mt rfl
  have hn0 : (sensState params).store.names = params.map Prod.fst := rfl
  have hs1 : s1.params = params := by
    refine foldlM_preserves (P := fun t : Store => t.params = params) ?_ rfl h3
    intro t a t' _ ht hb
    obtain ⟨_, _, _, _, hp, _⟩ := pruneEpochBeginBody_spec rfl hb
    rw [hp, ht]
  have hmk : s1.maskers.map Prod.fst = params.map Prod.fst := by
    rw [hl.forParams_maskerNames h3]
    simp [sensState, createModelMasksDict]
  have hsn : s1.names = params.map Prod.fst := by unfold Store.names; rw [hs1]
  unfold maskAllWeights Store.forParams at h2
  obtain ⟨_, m2, m3⟩ := maskAll_fold (l := s1.names) (by rw [hsn]; exact hnd) (fun n hn => hn) (by rw [hsn, hmk]; exact fun n hn => hn) h2
  refine ⟨by rw [m2, hs1], ?_⟩
  intro n w hw
  have hmem : n ∈ params.map Prod.fst := by rw [← get?_isSome_iff, hw]; rfl
  obtain ⟨t, t', ht, hb, ht'⟩ := hl.forParams_at (by rw [hn0]; exact hnd) h3 (by rw [hn0]; exact hmem)
  injection ht with ta tb
  injection ht' with ta' tb'
  obtain ⟨m, m', e1, e2, e3, _, _, _, e7, _⟩ := pruneEpochBeginBody_spec rfl hb
  obtain ⟨tt, k, e8, e9⟩ := e7 rfl
  have hm0 : m = {} := by
    rw [tb] at e1
    have := mem_of_get? e1
    simp only [sensState, createModelMasksDict, List.mem_map] at this
    obtain ⟨_, _, e⟩ := this
    injection e with _ e; exact e.symm
  have hpw : t.param n = w := by
    have e : t.params.get? n = some w := by rw [ta]; exact hw
    simp [Store.param, e]
  rw [hf, hpw, hm0] at e8
  refine ⟨k, e8, ?_⟩
  rw [m3 n, hs1, hsn, if_pos hmem, hw]
  have : s1.maskers.get? n = some m' := by rw [← tb', e2]; simp
  rw [this]
  simp only [Option.bind_some, Option.map_some, Masker.maskTensor, e9]

/-- The weights with one tensor replaced. -/
def withTensor (params : Dict Name Tensor) (n : Name) (v : Tensor) : Name → Option Tensor :=
  fun m => if m = n then some v else params.get? m

theorem sensPrune_element {shapes : Name → PShape} {n : Name} (hstar : n ≠ star) {s : ℚ} {params params' : Dict Name Tensor}
    (hnd : (params.map Prod.fst).Nodup) {v : Tensor} (hv : params.get? n = some v)
    (h : sensPrune (sensEnv .element shapes n s) params = .ok params') :
    params'.map Prod.fst = params.map Prod.fst ∧ params'.get? = withTensor params n (levelPruned v s) := by
  obtain ⟨h1, h2⟩ := sensPrune_spec (f := fun m w o => levelSetMask [(n, s)] m w o) (fun _ _ _ _ _ _ => rfl) hnd h
  refine ⟨h1, funext fun m => ?_⟩
  unfold withTensor
  by_cases hm : m = n
  · subst hm
    rw [if_pos rfl]
    obtain ⟨k, e1, e2⟩ := h2 m v hv
    rw [e2]
    unfold levelSetMask at e1
    have hget : (Dict.get? [(m, s)] m) = some s := by simp [Dict.get?]
    rw [hget] at e1
    simp only [Option.getD_some] at e1
    by_cases hs : s = 0
    · subst hs
      simp at e1
      subst e1
      simp [Masker.maskTensor, levelPruned_zero]
    · rw [if_neg hs] at e1
      obtain ⟨mk, e3, e4⟩ := ok_bind e1
      cases e4
      simp [Masker.maskTensor, mask_is_levelPruned e3]
  · rw [if_neg hm]
    cases hp : params.get? m with
    | none =>
      rw [get?_eq_none_iff, h1, ← get?_eq_none_iff]; exact hp
    | some w =>
      obtain ⟨k, e1, e2⟩ := h2 m w hp
      rw [e2]
      unfold levelSetMask at e1
      have g1 : (Dict.get? [(n, s)] m) = none := by simp [Dict.get?]; exact fun e => hm e.symm
      have g2 : (Dict.get? [(n, s)] star) = none := by simp [Dict.get?, hstar]
      rw [g1, g2] at e1
      simp at e1
      subst e1
      rfl

theorem sensLevels_element {R : Type} {test : (Name → Option Tensor) → R} {shapes : Name → PShape} {n : Name} (hstar : n ≠ star)
    {params : Dict Name Tensor} {w : Tensor} {ls : List ℚ} (hord : ls.Pairwise (· ≤ ·)) :
    ∀ {cur : Dict Name Tensor} {v : Tensor} {acc d : Dict ℚ R}, (cur.map Prod.fst).Nodup →
      cur.get? = withTensor params n v → (∀ s ∈ ls, levelPruned v s = levelPruned w s) →
      sensLevels test .element shapes n ls cur acc = .ok d →
      ∀ s, d.get? s = if s ∈ ls then some (test (withTensor params n (levelPruned w s))) else acc.get? s := by
  induction ls with
  | nil => intro cur v acc d _ _ _ h s; simp [sensLevels] at h; subst h; simp
  | cons a ls ih =>
    intro cur v acc d hnd hcur hlv h s
    unfold sensLevels at h
    obtain ⟨p', h1, h2⟩ := ok_bind h
    obtain ⟨e1, e2⟩ := sensPrune_element hstar hnd (v := v) (by rw [hcur]; simp [withTensor]) h1
    have e3 : p'.get? = withTensor params n (levelPruned w a) := by
      rw [e2, hlv a (by simp)]
      funext m
      unfold withTensor
      split
      · rfl
      · next hm => rw [hcur]; simp [withTensor, hm]
    obtain ⟨hle, hord'⟩ := List.pairwise_cons.1 hord
    rw [ih hord' (by rw [e1]; exact hnd) e3 (fun t ht => levelPruned_again w (hle t ht)) h2 s]
    by_cases c1 : s ∈ ls
    · simp [c1]
    · rw [if_neg c1]
      by_cases c2 : s = a
      · subst c2; simp [e3]
      · rw [get?_set_ne _ _ (fun e => c2 e.symm)]
        simp [c1, c2]

/-- The loop over the parameters: an entry for exactly the parameters that are analysed. -/
theorem sensFold {R : Type} {test : (Name → Option Tensor) → R} {g : SGroup} {shapes : Name → PShape} {params : Dict Name Tensor}
    {levels : List ℚ} {net : List Name} {acc res : Dict Name (Dict ℚ R)}
    (h : net.foldlM (sensStep test g shapes params levels) acc = .ok res) (n : Name) :
    (n ∈ net → ∃ o, sensParam test g shapes params levels n = .ok o ∧ (params.get? n).isSome ∧ (∀ d, o = some d → res.get? n = some d) ∧
      (o = none → res.get? n = acc.get? n)) ∧ (n ∉ net → res.get? n = acc.get? n) := by
  induction net generalizing acc with
  | nil => simp [pure, Except.pure] at h; subst h; simp
  | cons a net ih =>
    rw [List.foldlM_cons] at h
    obtain ⟨acc1, h1, h2⟩ := ok_bind h
    unfold sensStep at h1
    obtain ⟨wa, h3, h1⟩ := ok_bind h1
    obtain ⟨o, h4, h1⟩ := ok_bind h1
    have hwa := getE_ok h3
    have hacc : acc1.get? n = if n = a then (match o with | none => acc.get? n | some d => some d) else acc.get? n := by
      cases o with
      | none => cases h1; simp
      | some d =>
        cases h1
        by_cases c : n = a
        · subst c; simp
        · rw [get?_set_ne _ _ (fun e => c e.symm)]; simp [c]
    obtain ⟨i1, i2⟩ := ih h2
    constructor
    · intro hn
      by_cases hnn : n ∈ net
      · obtain ⟨o', j1, j2, j3, j4⟩ := i1 hnn
        refine ⟨o', j1, j2, j3, ?_⟩
        intro ho
        rw [j4 ho, hacc]
        by_cases c : n = a
        · subst c
          rw [h4] at j1; cases j1; subst ho; simp
        · simp [c]
      · have hna : n = a := by simpa [hnn] using hn
        subst hna
        refine ⟨o, h4, by rw [hwa]; rfl, ?_, ?_⟩
        · intro d ho; subst ho; rw [i2 hnn, hacc]; simp
        · intro ho; subst ho; rw [i2 hnn, hacc]; simp
    · intro hn
      simp only [List.mem_cons, not_or] at hn
      rw [i2 hn.2, hacc]; simp [hn.1]

/-- **C90** (element-wise) The analysis succeeded for levels given in non-decreasing order: every analysed 2-D or
4-D parameter has, for each level, the result of testing the *original* network with that parameter alone pruned
to that level; parameters of other ranks and parameters not asked for have no entry. -/
theorem C90_element_partial {R : Type} (test : (Name → Option Tensor) → R) (shapes : Name → PShape) (params : Dict Name Tensor)
    (net : List Name) (levels : List ℚ) (res : Dict Name (Dict ℚ R)) (hnd : (params.map Prod.fst).Nodup)
    (hord : levels.Pairwise (· ≤ ·)) (hne : levels ≠ [])
    (h : sensitivityAnalysis test .element shapes params net levels = .ok res) (n : Name) (hstar : n ≠ star) :
    (n ∈ net → shapes n ≠ .other → ∃ w d, params.get? n = some w ∧ res.get? n = some d ∧
      ∀ s, d.get? s = if s ∈ levels then some (test (withTensor params n (levelPruned w s))) else none) ∧
    (n ∉ net ∨ shapes n = .other → res.get? n = none) := by
  unfold sensitivityAnalysis at h
  rw [if_neg (by simp)] at h
  obtain ⟨f1, f2⟩ := sensFold h n
  constructor
  · intro hn hsh
    obtain ⟨o, h1, h2, h3, h4⟩ := f1 hn
    obtain ⟨w, hw⟩ := Option.isSome_iff_exists.1 h2
    have hx : ∃ d, sensLevels test .element shapes n levels params [] = .ok d ∧ o = some d := by
      unfold sensParam at h1
      cases hs : shapes n with
      | other => exact absurd hs hsh
      | d2 r c =>
        rw [hs] at h1
        cases levels with
        | nil => exact absurd rfl hne
        | cons a l =>
          obtain ⟨d, e1, e2⟩ := ok_bind h1
          cases e2; exact ⟨d, e1, rfl⟩
      | d4 a b c e =>
        rw [hs] at h1
        cases levels with
        | nil => exact absurd rfl hne
        | cons a l =>
          obtain ⟨d, e1, e2⟩ := ok_bind h1
          cases e2; exact ⟨d, e1, rfl⟩
    obtain ⟨d, hd, ho⟩ := hx
    refine ⟨w, d, hw, h3 d ho, ?_⟩
    intro s
    rw [sensLevels_element hstar (params := params) (w := w) hord hnd (v := w) (by
      funext m; unfold withTensor; split
      · next e => rw [e, hw]
      · rfl) (fun _ _ => rfl) hd s]
    rfl
  · intro hor
    by_cases hn : n ∈ net
    · have hs : shapes n = .other := by rcases hor with c | c; exact absurd hn c; exact c
      obtain ⟨o, h1, h2, h3, h4⟩ := f1 hn
      have ho : o = none := by
        unfold sensParam at h1
        rw [hs] at h1
        cases h1; rfl
      rw [h4 ho]; rfl
    · rw [f2 hn]; rfl

/-- An unknown `group` is refused before anything is done. -/
theorem C90_illegal_group {R : Type} (test : (Name → Option Tensor) → R) (shapes : Name → PShape) (params : Dict Name Tensor)
    (net : List Name) (levels : List ℚ) : sensitivityAnalysis test .illegal shapes params net levels = .error .value := rfl

def exSens : Dict Name Tensor := [(["conv1", "weight"], [1, 2, 3, 4]), (["layer1", "0", "conv1", "weight"], [5, 6, -7, 8])]
def exSensShapes : Name → PShape := fun _ => .d4 4 1 1 1

/-- The hypotheses are met: two levels in increasing order, `test` returns the weights. -/
example : ([1/4, 1/2] : List ℚ).Pairwise (· ≤ ·) ∧ (exSens.map Prod.fst).Nodup ∧
    sensitivityAnalysis (fun p => p ["conv1", "weight"]) .element exSensShapes exSens
      [["conv1", "weight"]] [1/4, 1/2] =
    .ok [(["conv1", "weight"], [(1/4, some [0, 2, 3, 4]), (1/2, some [0, 0, 3, 4])])] := by
  refine ⟨by simp; norm_num, by decide +kernel, by decide +kernel⟩

/-- **C90** is violated for levels not in increasing order: pruning is cumulative on one copy of the model, so the
entry of 1/4 after 3/4 is the result at 3/4. -/
theorem C90_violated_order : ∃ (params : Dict Name Tensor) (n : Name) (w : Tensor) (s : ℚ) (res : Dict Name (Dict ℚ (Option Tensor))),
    params.get? n = some w ∧ sensitivityAnalysis (fun p => p n) .element exSensShapes params [n] [3/4, s] = .ok res ∧
    (res.get? n).bind (fun d => d.get? s) ≠ some (some (levelPruned w s)) ∧
    (res.get? n).bind (fun d => d.get? s) = some (some (levelPruned w (3/4))) :=
  ⟨exSens, ["conv1", "weight"], [1, 2, 3, 4], 1/4, [(["conv1", "weight"], [(3/4, some [0, 0, 0, 4]), (1/4, some [0, 0, 0, 4])])],
    by decide +kernel, by decide +kernel, by decide +kernel, by decide +kernel⟩

/-- **C90** is violated for filters (and channels): the name of the analysed parameter is used as a *string* of
names, so every parameter whose name is a substring of it is pruned as well: analysing
`layer1.0.conv1.weight` of a ResNet also prunes `conv1.weight`. -/
theorem C90_violated_filters_substring : ∃ (params : Dict Name Tensor) (n m : Name) (w w' : Tensor)
    (res : Dict Name (Dict ℚ (Option Tensor))), m ≠ n ∧ params.get? m = some w ∧
    sensitivityAnalysis (fun p => p m) .filter exSensShapes params [n] [1/2] = .ok res ∧
    (res.get? n).bind (fun d => d.get? (1/2)) = some (some w') ∧ w' ≠ w :=
  ⟨exSens, ["layer1", "0", "conv1", "weight"], ["conv1", "weight"], [1, 2, 3, 4], [0, 0, 3, 4],
    [(["layer1", "0", "conv1", "weight"], [(1/2, some [0, 0, 3, 4])])],
    by decide +kernel, by decide +kernel, by decide +kernel, by decide +kernel, by decide +kernel⟩

end Verif
