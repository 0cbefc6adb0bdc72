import Verif.Model.LayerGates
import Mathlib.Tactic.Linarith
import Mathlib.Tactic.Ring
/-!
# C154: removing layers of ResNet
-/
namespace Verif

/-- The gate of convolution `c` (0 or 1) in block `b` of layer `l`. -/
def gateAt (g : Gates) (l b c : ℕ) : Option Bool := ((g[l]?).bind (·[b]?)).bind (·[c]?)

/-- Specification: the parameter name of the weights of that convolution in a data-parallel model (blocks numbered with any
number of digits). -/
def IsConvWeight (n : Name) (l b c : ℕ) : Prop :=
  ∃ p1 p2 p3, n = ["module", p1, p2, p3, "weight"] ∧ lastDigit p1 = .ok (l + 1) ∧ pyIntOf p2 = .ok b ∧
    p3 ≠ "downsample" ∧ lastDigit p3 = .ok (c + 1)

theorem pyIndex_nat {len i : ℕ} (h : i < len) : pyIndex len (i : Int) = .ok i := by
  unfold pyIndex
  rw [if_pos ⟨by omega, by omega⟩, Int.toNat_natCast]

theorem gateAt_some {g : Gates} {l b c : ℕ} {x : Bool} (h : gateAt g l b c = some x) :
    ∃ bs cs, g[l]? = some bs ∧ bs[b]? = some cs ∧ cs[c]? = some x := by
  unfold gateAt at h
  cases h1 : g[l]? with
  | none => rw [h1] at h; cases h
  | some bs =>
    rw [h1] at h
    simp only [Option.bind_some] at h
    cases h2 : bs[b]? with
    | none => rw [h2] at h; cases h
    | some cs => rw [h2] at h; exact ⟨bs, cs, rfl, h2, h⟩

theorem closeGate_spec (g : Gates) (l b c : ℕ) (x : Bool) (h : gateAt g l b c = some x) :
    ∃ g', closeGate g l b c = .ok g' ∧ ∀ l' b' c', gateAt g' l' b' c' =
      if l' = l ∧ b' = b ∧ c' = c then some false else gateAt g l' b' c' := by
  obtain ⟨bs, cs, h1, h2, h3⟩ := gateAt_some h
  have hl : l < g.length := (List.getElem?_eq_some_iff.1 h1).1
  have hb : b < bs.length := (List.getElem?_eq_some_iff.1 h2).1
  have hc : c < cs.length := (List.getElem?_eq_some_iff.1 h3).1
  have e1 : g.getD l [] = bs := by rw [List.getD_eq_getElem?_getD, h1]; rfl
  have e2 : bs.getD b [] = cs := by rw [List.getD_eq_getElem?_getD, h2]; rfl
  refine ⟨g.set l (bs.set b (cs.set c false)), ?_, ?_⟩
  · unfold closeGate
    rw [pyIndex_nat hl]
    show (pyIndex (g.getD l []).length (b : Int)).bind _ = _
    rw [e1, pyIndex_nat hb]
    show (pyIndex (bs.getD b []).length (c : Int)).bind _ = _
    rw [e2, pyIndex_nat hc]
    rfl
  · intro l' b' c'
    unfold gateAt
    by_cases q1 : l = l'
    · subst q1
      rw [List.getElem?_set_self hl, h1]
      simp only [Option.bind_some]
      by_cases q2 : b = b'
      · subst q2
        rw [List.getElem?_set_self hb, h2]
        simp only [Option.bind_some]
        by_cases q3 : c = c'
        · subst q3; rw [List.getElem?_set_self hc]; simp
        · rw [List.getElem?_set_ne q3, if_neg (fun hh => q3 hh.2.2.symm)]
      · rw [List.getElem?_set_ne q2, if_neg (fun hh => q2 hh.2.1.symm)]
    · rw [List.getElem?_set_ne q1, if_neg (fun hh => q1 hh.1.symm)]

theorem removeOne_conv (g : Gates) (cur : Option Int) (n : Name) (l b c : ℕ) (hn : IsConvWeight n l b c) (x : Bool)
    (h : gateAt g l b c = some x) : ∃ g', removeOne (g, cur) n = .ok (g', some (c : Int)) ∧ closeGate g l b c = .ok g' := by
  obtain ⟨p1, p2, p3, rfl, h1, h2, h3, h4⟩ := hn
  obtain ⟨g', hg, -⟩ := closeGate_spec g l b c x h
  refine ⟨g', ?_, hg⟩
  have hconv : convOf ["module", p1, p2, p3, "weight"] cur = .ok (some (c : Int)) := by
    have hp : partAt ["module", p1, p2, p3, "weight"] 3 = .ok p3 := rfl
    unfold convOf
    rw [hp]
    show (if p3 = "downsample" then _ else _) = _
    rw [if_neg h3, h4]
    show Except.ok (some (((c + 1 : ℕ) : Int) - 1)) = _
    congr 2; push_cast; omega
  unfold removeOne
  have ha : partAt ["module", p1, p2, p3, "weight"] 1 = .ok p1 := rfl
  have hb : partAt ["module", p1, p2, p3, "weight"] 2 = .ok p2 := rfl
  have hc : (((l + 1 : ℕ) : Int) - 1) = (l : Int) := by push_cast; omega
  simp only [ha, h1, hb, h2, hconv, bind, Except.bind, pure, Except.pure]
  rw [hc, hg]

theorem removeFold (ns : List Name) : ∀ (g : Gates) (cur : Option Int),
    (∀ n ∈ ns, ∃ l b c x, IsConvWeight n l b c ∧ gateAt g l b c = some x) →
    ∃ g' cur', ns.foldlM removeOne (g, cur) = .ok (g', cur') ∧
      ∀ l b c, ((∃ n ∈ ns, IsConvWeight n l b c) → gateAt g' l b c = some false) ∧
        ((¬ ∃ n ∈ ns, IsConvWeight n l b c) → gateAt g' l b c = gateAt g l b c) := by
  induction ns with
  | nil => intro g cur _; exact ⟨g, cur, rfl, fun l b c => ⟨by simp, fun _ => rfl⟩⟩
  | cons n ns ih =>
    intro g cur h
    obtain ⟨l, b, c, x, hn, hx⟩ := h n (by simp)
    obtain ⟨g1, h1, h2⟩ := removeOne_conv g cur n l b c hn x hx
    obtain ⟨g1', h2', h3⟩ := closeGate_spec g l b c x hx
    rw [h2] at h2'; injection h2' with h2'; subst h2'
    have huniq : ∀ l' b' c', IsConvWeight n l' b' c' → l' = l ∧ b' = b ∧ c' = c := by
      rintro l' b' c' ⟨p1, p2, p3, e, k1, k2, -, k4⟩
      obtain ⟨q1, q2, q3, e', m1, m2, -, m4⟩ := hn
      rw [e] at e'
      simp only [List.cons.injEq, and_true, true_and] at e'
      obtain ⟨rfl, rfl, rfl⟩ := e'
      rw [k1] at m1; rw [k2] at m2; rw [k4] at m4
      simp only [Except.ok.injEq] at m1 m2 m4
      omega
    obtain ⟨g', cur', i1, i2⟩ := ih g1 (some c) (by
      intro m hm
      obtain ⟨l', b', c', y, hm', hy⟩ := h m (by simp [hm])
      refine ⟨l', b', c', ?_, hm', ?_⟩
      · exact if l' = l ∧ b' = b ∧ c' = c then false else y
      · rw [h3]; split <;> simp_all)
    refine ⟨g', cur', ?_, ?_⟩
    · rw [List.foldlM_cons, h1]; exact i1
    · intro l' b' c'
      constructor
      · rintro ⟨m, hm, hc⟩
        by_cases hex : ∃ m ∈ ns, IsConvWeight m l' b' c'
        · exact (i2 l' b' c').1 hex
        · rw [(i2 l' b' c').2 hex, h3]
          rcases List.mem_cons.1 hm with rfl | hm
          · rw [if_pos (huniq _ _ _ hc)]
          · exact absurd ⟨m, hm, hc⟩ hex
      · intro hno
        have hno' : ¬ ∃ m ∈ ns, IsConvWeight m l' b' c' := fun ⟨m, hm, hc⟩ => hno ⟨m, by simp [hm], hc⟩
        rw [(i2 l' b' c').2 hno', h3, if_neg]
        rintro ⟨rfl, rfl, rfl⟩
        exact hno ⟨n, by simp, hn⟩

/-- **C154** (partial) If the only parameters with nothing but zeros are weights of the blocks' convolutions, the removal closes the
gates of exactly these convolutions and leaves every other gate as it was.  Missing: other parameters that are all zero
(`C154_violated_bias`, `C154_violated_downsample`), and that the network computes the same afterwards
(`C154_violated_function`). -/
theorem C154_gates_partial (params : Dict Name Tensor) (g : Gates)
    (h : ∀ q ∈ params, (∀ x ∈ q.2, x = 0) → ∃ l b c x, IsConvWeight q.1 l b c ∧ gateAt g l b c = some x) :
    ∃ g', removeLayers params g = .ok g' ∧
      ∀ l b c, ((∃ q ∈ params, (∀ x ∈ q.2, x = 0) ∧ IsConvWeight q.1 l b c) → gateAt g' l b c = some false) ∧
        ((¬ ∃ q ∈ params, (∀ x ∈ q.2, x = 0) ∧ IsConvWeight q.1 l b c) → gateAt g' l b c = gateAt g l b c) := by
  have hz : ∀ w : Tensor, allZero w = true ↔ ∀ x ∈ w, x = 0 := by
    intro w; unfold allZero; rw [List.all_eq_true]
    exact ⟨fun h x hx => of_decide_eq_true (h x hx), fun h x hx => decide_eq_true (h x hx)⟩
  have hmem : ∀ n, n ∈ (params.filter (fun q => allZero q.2)).map Prod.fst ↔ ∃ q ∈ params, (∀ x ∈ q.2, x = 0) ∧ q.1 = n := by
    intro n
    rw [List.mem_map]
    constructor
    · rintro ⟨q, hq, rfl⟩
      rw [List.mem_filter] at hq
      exact ⟨q, hq.1, (hz _).1 hq.2, rfl⟩
    · rintro ⟨q, h1, h2, rfl⟩
      exact ⟨q, List.mem_filter.2 ⟨h1, (hz _).2 h2⟩, rfl⟩
  obtain ⟨g', cur', h1, h2⟩ := removeFold ((params.filter (fun q => allZero q.2)).map Prod.fst) g none (by
    intro n hn
    obtain ⟨q, hq, hq2, rfl⟩ := (hmem n).1 hn
    exact h q hq hq2)
  refine ⟨g', by unfold removeLayers; rw [h1]; rfl, fun l b c => ⟨?_, ?_⟩⟩
  · rintro ⟨q, hq, hq2, hc⟩
    exact (h2 l b c).1 ⟨q.1, (hmem _).2 ⟨q, hq, hq2, rfl⟩, hc⟩
  · intro hno
    refine (h2 l b c).2 ?_
    rintro ⟨n, hn, hc⟩
    obtain ⟨q, hq, hq2, rfl⟩ := (hmem n).1 hn
    exact hno ⟨q, hq, hq2, hc⟩

/-! Instances -/
def gatesEx : Gates := [[[true, true], [true, true]], [[true, true], [true, true]], [[true, true], [true, true]]]

example : IsConvWeight ["module", "layer2", "1", "conv2", "weight"] 1 1 1 :=
  ⟨"layer2", "1", "conv2", rfl, by decide +kernel, by decide +kernel, by decide +kernel, by decide +kernel⟩

example : removeLayers [(["module", "conv1", "weight"], [1]), (["module", "layer2", "1", "conv2", "weight"], [0, 0]),
      (["module", "layer3", "0", "conv1", "weight"], [0, 0]), (["module", "layer3", "0", "bn1", "bias"], [0, 1])] gatesEx =
    .ok [[[true, true], [true, true]], [[true, true], [true, false]], [[false, true], [true, true]]] := by decide +kernel

/-- `int` of the decimal notation of a number is the number. -/
theorem pyIntOf_repr (n : ℕ) : pyIntOf n.repr = .ok n := by
  have key : ∀ (cs : List Char) (a : ℕ), (∀ c ∈ cs, c.isDigit = true) →
      cs.foldlM (m := Except Err) (fun n c => match digitOf c with | some d => .ok (10 * n + d) | none => .error Err.value) a =
        .ok (Nat.ofDigitChars 10 cs a) := by
    intro cs
    induction cs with
    | nil => intro a _; rfl
    | cons c cs ih =>
      intro a h
      rw [List.foldlM_cons]
      have hd : digitOf c = some (c.toNat - '0'.toNat) := by unfold digitOf; rw [if_pos (h c (by simp))]
      rw [hd]
      show cs.foldlM _ (10 * a + (c.toNat - '0'.toNat)) = _
      rw [ih _ (fun c hc => h c (by simp [hc])), Nat.ofDigitChars_cons]
  unfold pyIntOf
  rw [Nat.toList_repr, if_neg Nat.toDigits_ne_nil]
  refine (key _ _ (fun c hc => Nat.isDigit_of_mem_toDigits (by omega) (by omega) hc)).trans ?_
  rw [Nat.ofDigitChars_ten_toDigits]

theorem lastDigit_append (s : String) (d : ℕ) (hd : d < 10) : lastDigit (s ++ d.repr) = .ok d := by
  unfold lastDigit
  rw [String.toList_append, Nat.toList_repr, Nat.toDigits_of_lt_base hd, List.getLast?_append]
  simp only [List.getLast?_singleton, Option.some_or]
  have : digitOf d.digitChar = some d := by
    have : ∀ d : Fin 10, digitOf (Nat.digitChar d) = some d.1 := by decide +kernel
    exact this ⟨d, hd⟩
  rw [this]

/-- **C154** (names) The parameter that torch calls `module.layer<l+1>.<b>.conv<c+1>.weight` – at most nine layers and convolutions,
any number of blocks – is the weight of convolution `c` of block `b` of layer `l`. -/
theorem C154_names (l b c : ℕ) (hl : l < 9) (hc : c < 9) :
    IsConvWeight ["module", "layer" ++ (l + 1).repr, b.repr, "conv" ++ (c + 1).repr, "weight"] l b c := by
  refine ⟨_, _, _, rfl, lastDigit_append _ _ (by omega), pyIntOf_repr b, ?_, lastDigit_append _ _ (by omega)⟩
  intro h
  have h1 := congrArg (fun s => s.toList.head?) h
  simp only [String.toList_append] at h1
  rw [show "conv".toList = ['c', 'o', 'n', 'v'] from by decide +kernel, show "downsample".toList.head? = some 'd' from by decide +kernel] at h1
  simp at h1

/-- C154 is violated: the offsets of a block's normalization layer, which are all zero in a new network, make the removal close
the gate of a convolution whose weights are not zero; and those of the network's first normalization layer make it fail. -/
theorem C154_violated_bias :
    removeLayers [(["module", "layer2", "1", "conv2", "weight"], [7]), (["module", "layer2", "1", "bn2", "bias"], [0])] gatesEx =
      .ok [[[true, true], [true, true]], [[true, true], [true, false]], [[true, true], [true, true]]] ∧
    removeLayers [(["module", "conv1", "weight"], [7]), (["module", "bn1", "bias"], [0])] gatesEx = .error .value := by
  decide +kernel

/-- C154 is violated: a zero shortcut convolution closes the gate of whichever convolution number was handled before it, in its own
block, and as the first one raises. -/
theorem C154_violated_downsample :
    removeLayers [(["module", "layer1", "0", "conv2", "weight"], [0]), (["module", "layer2", "0", "conv2", "weight"], [7]),
        (["module", "layer2", "0", "downsample", "0", "weight"], [0])] gatesEx =
      .ok [[[true, false], [true, true]], [[true, false], [true, true]], [[true, true], [true, true]]] ∧
    removeLayers [(["module", "layer2", "0", "downsample", "0", "weight"], [0])] gatesEx = .error .name := by
  decide +kernel

/-- **C154** (what a block computes; `b.shortcut x` is the input or, if the block has them, the shortcut layers' result) With both gates open and a second convolution whose weights are zero, a block returns the
shortcut plus the constant its normalization gives; with both gates closed it returns the shortcut plus its input. -/
theorem C154_block (b : GateBlock) (x : Tensor) :
    (∀ z, (∀ y, b.conv2 y = z) → (b.shortcut x).length = (b.bn2 z).length →
      blockForward b [true, true] x = .ok (gRelu (gAdd (b.shortcut x) (b.bn2 z)))) ∧
    ((b.shortcut x).length = x.length →
      blockForward b [false, false] x = .ok (gRelu (gAdd (b.shortcut x) x))) := by
  constructor
  · intro z hz hl
    unfold blockForward
    simp only [List.getElem?_cons_zero, List.getElem?_cons_succ, if_true, hz]
    rw [if_pos hl]
  · intro hl
    unfold blockForward
    simp only [List.getElem?_cons_zero, List.getElem?_cons_succ, Bool.false_eq_true, if_false]
    rw [if_pos hl]

/-- C154 is violated: closing both gates of a block whose convolutions are zero (with the normalizations mapping zero to zero, and
no shortcut layer) changes its output from `relu(x)` to `relu(2 x)`: it differs for every input with a positive entry. -/
theorem C154_violated_function (b : GateBlock) (x : Tensor) (h1 : ∀ y, b.conv2 y = y.map fun _ => 0) (h2 : ∀ y, (b.bn1 (b.conv1 y)).length = y.length)
    (h3 : b.bn2 (x.map fun _ => 0) = x.map fun _ => 0) (hd : b.down = none) (i : ℕ) (v : ℚ) (hv : x[i]? = some v) (hpos : 0 < v) :
    ∃ y y', blockForward b [true, true] x = .ok y ∧ blockForward b [false, false] x = .ok y' ∧
      y[i]? = some v ∧ y'[i]? = some (2 * v) ∧ y ≠ y' := by
  have hc : b.conv2 (gRelu (b.bn1 (b.conv1 x))) = x.map fun _ => 0 := by
    rw [h1]
    apply List.ext_getElem (by simp [gRelu, h2])
    intro k _ _; simp
  have hs : b.shortcut x = x := by unfold GateBlock.shortcut; rw [hd]
  have e1 : blockForward b [true, true] x = .ok (gRelu (gAdd x (x.map fun _ => 0))) := by
    unfold blockForward
    simp only [List.getElem?_cons_zero, List.getElem?_cons_succ, if_true, hc, h3, hs]
    rw [if_pos (by simp)]
  have e2 := (C154_block b x).2 (by rw [hs])
  rw [hs] at e2
  have y1 : (gRelu (gAdd x (x.map fun _ => 0)))[i]? = some v := by
    simp [gRelu, gAdd, List.getElem?_zipWith, hv, le_of_lt hpos]
  have y2 : (gRelu (gAdd x x))[i]? = some (2 * v) := by
    have : v + v = 2 * v := by ring
    simp [gRelu, gAdd, hv, this, le_of_lt hpos]
  refine ⟨_, _, e1, e2, y1, y2, fun hh => ?_⟩
  rw [hh, y2] at y1
  injection y1 with y1
  linarith

/-- **C154** (digit zero) A layer whose name ends in the digit 0 (`layer10`) is taken for the last layer: its index is -1, which Python
counts from the end. -/
theorem C154_zero_digit (g : Gates) (hg : g ≠ []) (b c : Int) : closeGate g (-1) b c = closeGate g ((g.length - 1 : ℕ) : Int) b c := by
  have hpos : 0 < g.length := List.length_pos_iff.2 hg
  have e1 : pyIndex g.length (-1) = .ok (g.length - 1) := by
    unfold pyIndex
    rw [if_neg (by omega), if_pos ⟨by omega, by omega⟩]
    congr 1
    omega
  unfold closeGate
  rw [e1, pyIndex_nat (by omega)]

example : removeLayers [(["module", "layer10", "0", "conv1", "weight"], [0])] gatesEx =
    .ok [[[true, true], [true, true]], [[true, true], [true, true]], [[false, true], [true, true]]] := by decide +kernel

end Verif
