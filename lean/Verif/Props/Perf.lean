import Verif.Model.Perf
import Mathlib.Data.Fintype.Card
import Mathlib.Data.Fintype.Prod
import Mathlib.Data.Fintype.BigOperators
import Mathlib.Tactic.FieldSimp
import Mathlib.Tactic.Linarith
import Mathlib.Tactic.Ring
import Mathlib.Algebra.Order.Round
/-!
# Compute summaries and the non-parallel copy: C108–C110
-/
namespace Verif

/-! ## C108: attributes of the operations

Specification: a convolution computes, for every sample, output channel and output position, the sum of products
over the input channels of its group and the positions of the kernel; channels `ic` and `oc` are in the same group if
`ic / (cin / groups) = oc / (cout / groups)`.  A linear layer computes, for every row of its input and every output
feature, the sum of products over the input features. -/

/-- The multiply-accumulate operations of a convolution: sample, output position, output channel, input channel of
the same group, kernel position. -/
abbrev ConvMac (n cin cout opos kpos g : ℕ) : Type :=
  Fin n × Fin opos × Fin kpos × { p : Fin cout × Fin cin // p.2.val / (cin / g) = p.1.val / (cout / g) }

/-- Those of a linear layer. -/
abbrev LinMac (rows inF outF : ℕ) : Type := Fin rows × Fin outF × Fin inF

theorem card_block {n q g b : ℕ} (hn : n = q * g) (hb : b < g) :
    Fintype.card { x : Fin n // x.val / q = b } = q := by
  subst hn
  rcases Nat.eq_zero_or_pos q with rfl | hq
  · have : IsEmpty { x : Fin (0 * g) // x.val / 0 = b } := ⟨fun x => absurd x.1.2 (by simp)⟩
    exact Fintype.card_eq_zero
  · have e : { x : Fin (q * g) // x.val / q = b } ≃ Fin q :=
      { toFun := fun x => ⟨x.1.val % q, Nat.mod_lt _ hq⟩
        invFun := fun r => ⟨⟨q * b + r.val, by
            calc q * b + r.val < q * b + q := by have := r.2; omega
              _ = q * (b + 1) := by ring
              _ ≤ q * g := Nat.mul_le_mul_left _ hb⟩, by
          simp only
          rw [Nat.mul_add_div hq, Nat.div_eq_of_lt r.2, Nat.add_zero]⟩
        left_inv := by
          rintro ⟨x, hx⟩
          apply Subtype.ext
          apply Fin.ext
          simp only
          rw [← hx]
          exact Nat.div_add_mod x.val q
        right_inv := by
          intro r
          apply Fin.ext
          simp only
          rw [Nat.mul_add_mod, Nat.mod_eq_of_lt r.2] }
    rw [Fintype.card_congr e, Fintype.card_fin]

theorem card_grouped {cin cout g : ℕ} (hg : 0 < g) (hi : g ∣ cin) (ho : g ∣ cout) :
    Fintype.card { p : Fin cout × Fin cin // p.2.val / (cin / g) = p.1.val / (cout / g) } = cout * (cin / g) := by
  obtain ⟨q, rfl⟩ := hi
  obtain ⟨r, rfl⟩ := ho
  rw [Nat.mul_div_cancel_left _ hg, Nat.mul_div_cancel_left _ hg]
  have e : { p : Fin (g * r) × Fin (g * q) // p.2.val / q = p.1.val / r } ≃
      (Σ oc : Fin (g * r), { x : Fin (g * q) // x.val / q = oc.val / r }) :=
    { toFun := fun p => ⟨p.1.1, p.1.2, p.2⟩
      invFun := fun s => ⟨(s.1, s.2.1), s.2.2⟩
      left_inv := fun _ => rfl
      right_inv := fun _ => rfl }
  rw [Fintype.card_congr e, Fintype.card_sigma]
  have : ∀ oc : Fin (g * r), Fintype.card { x : Fin (g * q) // x.val / q = oc.val / r } = q := by
    intro oc
    have hlt : oc.val / r < g := by
      rw [Nat.div_lt_iff_lt_mul]
      · exact oc.2
      · rcases Nat.eq_zero_or_pos r with h | h
        · exact absurd oc.2 (by simp [h])
        · exact h
    exact card_block (Nat.mul_comm g q) hlt
  rw [Finset.sum_congr rfl (fun oc _ => this oc)]
  simp

theorem card_convMac {n cin cout opos kpos g : ℕ} (hg : 0 < g) (hi : g ∣ cin) (ho : g ∣ cout) :
    Fintype.card (ConvMac n cin cout opos kpos g) = n * (opos * (kpos * (cout * (cin / g)))) := by
  rw [Fintype.card_prod, Fintype.card_prod, Fintype.card_prod, card_grouped hg hi ho]
  simp

/-- **C108** The MACs attribute of a convolution, of any dimension, kernel, batch size and number of groups, is the
number of its multiply-accumulate operations. -/
theorem C108_conv (n cin cout g : ℕ) (sp osp ker : List ℕ) (hg : 0 < g) (hi : g ∣ cin) (ho : g ∣ cout) :
    (GOp.mk "Conv" (n :: cin :: sp) (n :: cout :: osp) ker g).macs =
      Fintype.card (ConvMac n cin cout osp.prod ker.prod g) := by
  rw [card_convMac hg hi ho]
  obtain ⟨q, rfl⟩ := hi
  rw [Nat.mul_div_cancel_left _ hg]
  have hg' : (g : ℚ) ≠ 0 := by exact_mod_cast hg.ne'
  have : ((vol (n :: cout :: osp) : ℕ) : ℚ) * (vol ker : ℕ) * ((g * q : ℕ) : ℚ) / (g : ℚ) =
      ((n * (osp.prod * (ker.prod * (cout * q))) : ℕ) : ℤ) := by
    simp only [vol, List.prod_cons]
    push_cast
    field_simp
  simp only [GOp.macs, if_true, List.getElem?_cons_succ, List.getElem?_cons_zero]
  rw [this, Int.floor_intCast]

/-- A grouped convolution (2 groups, 4 to 6 channels, 3×3 on 5×5, batch of 2). -/
example : (0 < 2 ∧ 2 ∣ 4 ∧ 2 ∣ 6) ∧ (GOp.mk "Conv" [2, 4, 5, 5] [2, 6, 3, 3] [3, 3] 2).macs = 1944 :=
  ⟨by decide, by decide +kernel⟩

/-- **C108** The MACs attribute of a linear layer on a single sample is the number of its operations. -/
theorem C108_linear (inF outF : ℕ) :
    (GOp.mk "Gemm" [1, inF] [1, outF] [] 1).macs = Fintype.card (LinMac 1 inF outF) := by
  simp [GOp.macs]

/-- **C108** is violated by linear layers on a batch: convolutions count every sample, linear layers one, so that
the total of a mixed network is neither per sample nor per batch. -/
theorem C108_violated_batch : ∃ n inF outF : ℕ,
    (GOp.mk "Gemm" [n, inF] [n, outF] [] 1).macs ≠ Fintype.card (LinMac n inF outF) ∧
    (GOp.mk "Conv" [n, inF, 1, 1] [n, outF, 1, 1] [1, 1] 1).macs = Fintype.card (LinMac n inF outF) :=
  ⟨2, 3, 5, by simp [GOp.macs], by simp; decide +kernel⟩

/-- **C108** is violated by linear layers on inputs with more than two dimensions, which are traced as `MatMul`, and
by transposed convolutions: they are reported as free. -/
theorem C108_violated_types (o : GOp) (h : o.type = "MatMul" ∨ o.type = "ConvTranspose") : o.macs = 0 := by
  rcases h with h | h <;> simp [GOp.macs, h]

/-- **C108** (footprint) The footprint of a convolution or linear layer is the number of elements of its input,
its output and its weights (`cout × cin / groups × kernel`, `outF × inF`). -/
theorem C108_footprint (n cin cout g : ℕ) (sp osp ker : List ℕ) (hg : 0 < g) (hi : g ∣ cin) :
    (GOp.mk "Conv" (n :: cin :: sp) (n :: cout :: osp) ker g).footprint =
      .ok (((n * cout * osp.prod + n * cin * sp.prod + cout * (cin / g) * ker.prod : ℕ) : ℚ)) ∧
    (GOp.mk "Gemm" [n, cin] [n, cout] [] 1).footprint = .ok (((n * cout + n * cin + cout * cin : ℕ) : ℚ)) ∧
    (GOp.mk "MaxPool" (n :: cin :: sp) (n :: cin :: osp) [] 1).footprint =
      .ok (((n * cin * osp.prod + n * cin * sp.prod : ℕ) : ℚ)) := by
  obtain ⟨q, rfl⟩ := hi
  have hg' : (g : ℚ) ≠ 0 := by exact_mod_cast hg.ne'
  refine ⟨?_, ?_, ?_⟩
  · rw [Nat.mul_div_cancel_left _ hg]
    simp only [GOp.footprint, GOp.weightsVol, true_or, if_true, List.getElem?_cons_succ, List.getElem?_cons_zero,
      vol, List.prod_cons]
    congr 1
    push_cast
    field_simp
  · simp only [GOp.footprint, GOp.weightsVol, or_true, if_true, List.getElem?_cons_succ, List.getElem?_cons_zero,
      vol, List.prod_cons, List.prod_nil]
    congr 1
    push_cast
    simp
    ring
  · simp only [GOp.footprint, vol, List.prod_cons]
    rw [if_neg (by simp), if_pos (by trivial)]
    congr 1
    push_cast
    ring

/-- **C108** is violated when shapes are missing from the trace (they are recorded as `(0,)`): MACs are reported as
0, but the footprint raises `IndexError`. -/
theorem C108_violated_missing_shape (ker : List ℕ) (g : ℕ) (s : List ℕ) :
    (GOp.mk "Conv" [0] s ker g).macs = 0 ∧ (GOp.mk "Conv" [0] s ker g).footprint = .error .index := by
  constructor
  · simp [GOp.macs]
  · simp [GOp.footprint]

/-- **C108** (intensity) The arithmetic intensity is MACs per element of the footprint, rounded to the nearest
integer, halves upwards. -/
theorem C108_intensity (macs : ℤ) (fp : ℚ) (h : 0 < fp) :
    (intensity macs fp : ℚ) ≤ macs / fp + 1 / 2 ∧ (macs : ℚ) / fp - 1 / 2 < intensity macs fp ∧ intensity macs 0 = 0 := by
  unfold intensity
  rw [if_neg h.ne']
  have e : ((macs : ℚ) + 1 / 2 * fp) / fp = macs / fp + 1 / 2 := by field_simp
  rw [e]
  refine ⟨Int.floor_le _, ?_, by simp⟩
  have := Int.lt_floor_add_one ((macs : ℚ) / fp + 1 / 2)
  linarith

example : intensity 7 2 = 4 ∧ intensity 5 4 = 1 := by decide +kernel

/-! ## C109: the performance summary -/

mutual

/-- All places of a model where a module occurs: its identity, once per place. -/
def places : PTree → List ℕ
  | .node i _ cs => placesL cs ++ [i]
def placesL : List (String × PTree) → List ℕ
  | [] => []
  | (_, t) :: cs => places t ++ placesL cs

end

theorem id_mem_places (t : PTree) : t.id ∈ places t := by
  cases t; simp [places, PTree.id]

mutual

theorem visits_eq : (t : PTree) → (places t).Nodup → visits t = places t
  | .node i _ cs, h => by
    simp only [places, List.nodup_append] at h
    simp only [visits, places]
    rw [visitsL_eq cs [] h.1 (by simp)]
theorem visitsL_eq : (cs : List (String × PTree)) → (seen : List ℕ) → (placesL cs).Nodup →
    (∀ i ∈ placesL cs, i ∉ seen) → visitsL seen cs = placesL cs
  | [], _, _, _ => rfl
  | (n, t) :: cs, seen, h, hs => by
    simp only [placesL, List.nodup_append] at h
    simp only [placesL, List.mem_append] at hs
    simp only [visitsL, placesL]
    rw [if_neg (hs t.id (.inl (id_mem_places t))), visits_eq t h.1, visitsL_eq cs _ h.2.1]
    intro i hi hm
    rcases List.mem_cons.1 hm with rfl | hm
    · exact h.2.2 _ (id_mem_places t) _ hi rfl
    · exact hs i (.inr hi) hm

end

/-- The row that a call deserves: shapes, number of weights, number of multiply-accumulate operations. -/
inductive RowOf : PerfKind → PCall → PRow → Prop
  | conv (id n ci co g k0 k1 h w oh ow : ℕ) (hg : 0 < g) (hi : g ∣ ci) (ho : g ∣ co) :
      RowOf (.conv ci co g k0 k1) ⟨id, [n, ci, h, w], [n, co, oh, ow]⟩
        ⟨id, [n, ci, h, w], [n, co, oh, ow], co * (ci / g) * (k0 * k1),
          Fintype.card (ConvMac n ci co (oh * ow) (k0 * k1) g)⟩
  | linear (id i o : ℕ) : RowOf (.linear i o) ⟨id, [1, i], [1, o]⟩ ⟨id, [1, i], [1, o], o * i, Fintype.card (LinMac 1 i o)⟩

/-- A call as torch makes it: shapes agree with the module; linear layers on one sample. -/
def GoodCall (k : PerfKind) (c : PCall) : Prop := k = .other ∨ ∃ r, RowOf k c r

theorem perfRow_spec {k : PerfKind} {c : PCall} {r : PRow} (h : RowOf k c r) : perfRow k c = some r := by
  cases h with
  | conv id n ci co g k0 k1 h w oh ow hg hi ho =>
    rw [card_convMac hg hi ho]
    obtain ⟨q, rfl⟩ := hi
    have hg' : (g : ℚ) ≠ 0 := by exact_mod_cast hg.ne'
    simp only [perfRow, Nat.mul_div_cancel_left _ hg]
    congr 2
    · simp [vol]; ring
    · have : (vol [n, co, oh, ow] : ℚ) * (((g * q : ℕ) : ℚ) / g * k0 * k1) =
          ((n * (oh * ow * (k0 * k1 * (co * q))) : ℕ) : ℤ) := by
        simp only [vol, List.prod_cons, List.prod_nil]
        push_cast
        field_simp
      rw [this, Int.floor_intCast]
  | linear id i o => simp [perfRow, vol]

theorem perfRow_other (c : PCall) : perfRow .other c = none := rfl

/-- **C109** If no module occurs in two places of the model, the summary has one row for every call of a
convolution or linear layer, in the order of the calls - also for modules called several times - with its shapes,
its number of weights and its number of multiply-accumulate operations. -/
theorem C109_rows (kind : ℕ → PerfKind) (t : PTree) (calls : List PCall) (h : (places t).Nodup)
    (hc : ∀ c ∈ calls, c.id ∈ places t ∧ GoodCall (kind c.id) c) :
    List.Forall₂ (fun c r => RowOf (kind c.id) c r) (calls.filter fun c => kind c.id ≠ .other)
      (perfSummary kind t calls) := by
  induction calls with
  | nil => exact .nil
  | cons c cs ih =>
    have ih := ih fun c' h' => hc c' (List.mem_cons_of_mem _ h')
    obtain ⟨hm, hg⟩ := hc c (by simp)
    have hcount : (visits t).count c.id = 1 := by
      rw [visits_eq t h]; exact List.count_eq_one_of_mem h hm
    have hrow : perfSummary kind t (c :: cs) = (perfRow (kind c.id) c).toList ++ perfSummary kind t cs := by
      simp only [perfSummary, List.flatMap_cons, hcount, List.replicate_one]
      cases perfRow (kind c.id) c <;> simp
    rw [hrow]
    rcases hg with ho | ⟨r, hr⟩
    · rw [List.filter_cons_of_neg (by simp [ho]), ho, perfRow_other]
      simpa using ih
    · have hne : kind c.id ≠ .other := by rintro e; rw [e] at hr; cases hr
      rw [List.filter_cons_of_pos (by simp [hne]), perfRow_spec hr]
      exact .cons hr ih

def exKind : ℕ → PerfKind
  | 1 => .conv 4 6 2 3 3
  | 2 => .linear 3 2
  | _ => .other

def exModel : PTree := .node 0 false [("conv", .node 1 false []), ("head", .node 3 false [("fc", .node 2 false [])])]

example : (places exModel).Nodup ∧ perfSummary exKind exModel [⟨1, [1, 4, 5, 5], [1, 6, 3, 3]⟩, ⟨2, [1, 3], [1, 2]⟩,
      ⟨3, [1, 3], [1, 2]⟩, ⟨0, [1, 4, 5, 5], [1, 2]⟩] =
    [⟨1, [1, 4, 5, 5], [1, 6, 3, 3], 108, 972⟩, ⟨2, [1, 3], [1, 2], 6, 6⟩] := by
  decide +kernel

/-- **C109** is violated by a module that is part of two containers: it gets two hooks, and each of its calls is
listed and counted twice. -/
theorem C109_violated_shared : ∃ (kind : ℕ → PerfKind) (t : PTree) (c : PCall),
    GoodCall (kind c.id) c ∧ (perfSummary kind t [c]).length = 2 :=
  ⟨exKind, .node 0 false [("enc", .node 5 false [("emb", .node 2 false [])]), ("dec", .node 6 false [("emb", .node 2 false [])])],
   ⟨2, [1, 3], [1, 2]⟩, .inr ⟨_, .linear 2 3 2⟩, by decide +kernel⟩

/-- **C109** is violated by linear layers on more than one row (a batch, or a sequence): the number of
operations is that for one row. -/
theorem C109_violated_rows : ∃ (i o n : ℕ) (c : PCall) (r : PRow), c.inShape = [n, i] ∧ c.outShape = [n, o] ∧
    perfRow (.linear i o) c = some r ∧ r.macs < Fintype.card (LinMac n i o) :=
  ⟨3, 2, 4, ⟨2, [4, 3], [4, 2]⟩, _, rfl, rfl, rfl, by simp [vol]⟩

end Verif
