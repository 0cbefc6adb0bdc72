import Verif.Model.EarlyExit
import Verif.Lemmas.Fold
import Mathlib.Data.List.Basic
/-!
# C89: exits attached to a model
-/
namespace Verif
namespace NMod
variable {X : Type}

/-- Specification: the activation leaving the module named `p` while `m` processes `x`. -/
def outputAt : NMod X → List String → X → Option X
  | m, [], x => some (m.forward x).2
  | leaf _, _ :: _, _ => none
  | nil, _ :: _, _ => none
  | cons n c r, a :: as, x => if a = n then c.outputAt as x else r.outputAt (a :: as) (c.forward x).2
  | branch i b _, a :: as, x =>
    if a = "branched_module" then i.outputAt as x
    else if a = "branch_net" then b.outputAt as (i.forward x).2 else none

/-- Only the cached outputs change in a forward pass, and they do not influence the next one. -/
theorem forward_forward (m : NMod X) (x y : X) : (m.forward x).1.forward y = m.forward y := by
  induction m generalizing x y with
  | leaf f => rfl
  | nil => rfl
  | cons n c r ihc ihr => simp only [forward, ihc, ihr]
  | branch i b o ihi ihb => simp only [forward, ihi, ihb]

theorem find_forward {m : NMod X} {p : List String} {r : NMod X} (h : m.find p = some r) (x : X) :
    ∃ y, (m.forward x).1.find p = some (r.forward y).1 ∧ m.outputAt p x = some (r.forward y).2 := by
  induction m generalizing p x with
  | leaf f => cases p with
    | nil => simp [find] at h; subst h; exact ⟨x, rfl, rfl⟩
    | cons a as => simp [find] at h
  | nil => cases p with
    | nil => simp [find] at h; subst h; exact ⟨x, rfl, rfl⟩
    | cons a as => simp [find] at h
  | cons n c r ihc ihr => cases p with
    | nil => simp [find] at h; subst h; exact ⟨x, by simp [find], by simp [outputAt]⟩
    | cons a as =>
      simp only [find] at h
      simp only [forward, find, outputAt]
      split at h
      · next hn => simp only [hn, if_true]; exact ihc h x
      · next hn => simp only [if_neg hn]; exact ihr h _
  | branch i b o ihi ihb => cases p with
    | nil => simp [find] at h; subst h; exact ⟨x, by simp [find], by simp [outputAt]⟩
    | cons a as =>
      simp only [find] at h
      simp only [forward, find, outputAt]
      split at h
      · next hn => simp only [hn, if_true]; exact ihi h x
      · next hn =>
        simp only [if_neg hn]
        split at h
        · next hn2 => simp only [hn2, if_true]; exact ihb h _
        · cases h

theorem find_replace_self {m : NMod X} {p : List String} {r new : NMod X} (h : m.find p = some r) :
    (m.replace p new).find p = some new := by
  induction m generalizing p with
  | leaf f => cases p with
    | nil => simp [find, replace]
    | cons a as => simp [find] at h
  | nil => cases p with
    | nil => simp [find, replace]
    | cons a as => simp [find] at h
  | cons n c r ihc ihr => cases p with
    | nil => simp [find, replace]
    | cons a as =>
      simp only [find] at h
      simp only [replace]
      split at h
      · next hn => simp only [hn, if_true, find]; exact ihc h
      · next hn => simp only [if_neg hn, find]; exact ihr h
  | branch i b o ihi ihb => cases p with
    | nil => simp [find, replace]
    | cons a as =>
      simp only [find] at h
      simp only [replace]
      split at h
      · next hn => simp only [hn, if_true, find]; exact ihi h
      · next hn =>
        simp only [if_neg hn]
        split at h
        · next hn2 =>
          subst hn2
          simp only [if_true, find, if_neg hn]; exact ihb h
        · cases h

theorem find_replace_other {m : NMod X} {p q : List String} {new : NMod X} (h1 : ¬ p <+: q) (h2 : ¬ q <+: p) :
    (m.replace p new).find q = m.find q := by
  induction m generalizing p q with
  | leaf f => cases p with
    | nil => simp at h1
    | cons a as => rfl
  | nil => cases p with
    | nil => simp at h1
    | cons a as => rfl
  | cons n c r ihc ihr => cases p with
    | nil => simp at h1
    | cons a as => cases q with
      | nil => simp at h2
      | cons b bs =>
        simp only [replace]
        by_cases hn : a = n
        · simp only [hn, if_true, find]
          by_cases hb : b = n
          · simp only [hb, if_true]
            exact ihc (by simpa [List.cons_prefix_cons, hn, hb] using h1) (by simpa [List.cons_prefix_cons, hn, hb] using h2)
          · simp only [if_neg hb]
        · simp only [if_neg hn, find]
          by_cases hb : b = n
          · simp only [hb, if_true]
          · simp only [if_neg hb]; exact ihr h1 h2
  | branch i b o ihi ihb => cases p with
    | nil => simp at h1
    | cons a as => cases q with
      | nil => simp at h2
      | cons c cs =>
        simp only [replace]
        by_cases hn : a = "branched_module"
        · simp only [hn, if_true, find]
          by_cases hb : c = "branched_module"
          · simp only [hb, if_true]
            exact ihi (by simpa [List.cons_prefix_cons, hn, hb] using h1) (by simpa [List.cons_prefix_cons, hn, hb] using h2)
          · simp only [if_neg hb]
        · simp only [if_neg hn]
          by_cases hn2 : a = "branch_net"
          · simp only [hn2, if_true, find]
            by_cases hb : c = "branched_module"
            · simp only [hb, if_true]
            · simp only [if_neg hb]
              by_cases hb2 : c = "branch_net"
              · simp only [hb2, if_true]
                exact ihb (by simpa [List.cons_prefix_cons, hn2, hb2] using h1) (by simpa [List.cons_prefix_cons, hn2, hb2] using h2)
              · simp only [if_neg hb2]
          · simp only [if_neg hn2]

/-- Replacing a module by one that returns the same activations changes no activation anywhere else. -/
theorem forward_replace {m : NMod X} {p : List String} {r new : NMod X} (h : m.find p = some r)
    (heq : ∀ x, (new.forward x).2 = (r.forward x).2) (x : X) : ((m.replace p new).forward x).2 = (m.forward x).2 := by
  induction m generalizing p x with
  | leaf f => cases p with
    | nil => simp [find] at h; subst h; simp [replace, heq]
    | cons a as => simp [find] at h
  | nil => cases p with
    | nil => simp [find] at h; subst h; simp [replace, heq]
    | cons a as => simp [find] at h
  | cons n c r ihc ihr => cases p with
    | nil => simp [find] at h; subst h; simp [replace, heq]
    | cons a as =>
      simp only [find] at h
      simp only [replace]
      split at h
      · next hn => simp only [hn, if_true, forward, ihc h]
      · next hn => simp only [if_neg hn, forward, ihr h]
  | branch i b o ihi ihb => cases p with
    | nil => simp [find] at h; subst h; simp [replace, heq]
    | cons a as =>
      simp only [find] at h
      simp only [replace]
      split at h
      · next hn => simp only [hn, if_true, forward, ihi h]
      · next hn =>
        simp only [if_neg hn]
        split at h
        · next hn2 => simp only [hn2, if_true, forward]
        · cases h

theorem outputAt_replace {m : NMod X} {p q : List String} {r new : NMod X} (h : m.find p = some r)
    (heq : ∀ x, (new.forward x).2 = (r.forward x).2) (hpq : q = p ∨ (¬ p <+: q ∧ ¬ q <+: p)) (x : X) :
    (m.replace p new).outputAt q x = m.outputAt q x := by
  rcases hpq with rfl | ⟨h1, h2⟩
  · induction m generalizing q x with
    | leaf f => cases q with
      | nil => simp [find] at h; subst h; simp [replace, outputAt, heq]
      | cons a as => simp [find] at h
    | nil => cases q with
      | nil => simp [find] at h; subst h; simp [replace, outputAt, heq]
      | cons a as => simp [find] at h
    | cons n c r ihc ihr => cases q with
      | nil => simp [find] at h; subst h; simp [replace, outputAt, heq]
      | cons a as =>
        simp only [find] at h
        simp only [replace]
        split at h
        · next hn =>
          simp only [hn, if_true, outputAt]
          exact ihc x h
        · next hn =>
          simp only [if_neg hn, outputAt]
          exact ihr _ h
    | branch i b o ihi ihb => cases q with
      | nil => simp [find] at h; subst h; simp [replace, outputAt, heq]
      | cons a as =>
        simp only [find] at h
        simp only [replace]
        split at h
        · next hn =>
          simp only [hn, if_true, outputAt]
          exact ihi x h
        · next hn =>
          simp only [if_neg hn]
          split at h
          · next hn2 =>
            subst hn2
            simp only [if_true, outputAt, if_neg hn]
            exact ihb _ h
          · cases h
  · induction m generalizing p q x with
    | leaf f => cases p with
      | nil => simp at h1
      | cons a as => rfl
    | nil => cases p with
      | nil => simp at h1
      | cons a as => rfl
    | cons n c r ihc ihr => cases p with
      | nil => simp at h1
      | cons a as => cases q with
        | nil => simp at h2
        | cons b bs =>
          simp only [find] at h
          simp only [replace]
          by_cases hn : a = n
          · simp only [hn, if_true] at h
            simp only [hn, if_true, outputAt]
            by_cases hb : b = n
            · simp only [hb, if_true]
              exact ihc h x (by simpa [List.cons_prefix_cons, hn, hb] using h1) (by simpa [List.cons_prefix_cons, hn, hb] using h2)
            · simp only [if_neg hb, forward_replace h heq]
          · simp only [if_neg hn] at h
            simp only [if_neg hn, outputAt]
            by_cases hb : b = n
            · simp only [hb, if_true]
            · simp only [if_neg hb]; exact ihr h _ h1 h2
    | branch i b o ihi ihb => cases p with
      | nil => simp at h1
      | cons a as => cases q with
        | nil => simp at h2
        | cons c cs =>
          simp only [find] at h
          simp only [replace]
          by_cases hn : a = "branched_module"
          · simp only [hn, if_true] at h
            simp only [hn, if_true, outputAt]
            by_cases hb : c = "branched_module"
            · simp only [hb, if_true]
              exact ihi h x (by simpa [List.cons_prefix_cons, hn, hb] using h1) (by simpa [List.cons_prefix_cons, hn, hb] using h2)
            · simp only [if_neg hb, forward_replace h heq]
          · simp only [if_neg hn] at h
            simp only [if_neg hn]
            by_cases hn2 : a = "branch_net"
            · simp only [hn2, if_true] at h
              simp only [hn2, if_true, outputAt]
              by_cases hb : c = "branched_module"
              · simp only [hb, if_true]
              · simp only [if_neg hb]
                by_cases hb2 : c = "branch_net"
                · simp only [hb2, if_true]
                  exact ihb h _ (by simpa [List.cons_prefix_cons, hn2, hb2] using h1) (by simpa [List.cons_prefix_cons, hn2, hb2] using h2)
                · simp only [if_neg hb2]
            · simp only [if_neg hn2] at h; cases h

end NMod
open NMod

variable {X : Type}

theorem branch_same (r b : NMod X) (x : X) : ((NMod.branch r b none).forward x).2 = (r.forward x).2 := rfl

/-- **C89** (the model is not disturbed) Whatever exits are attached, the model's own output is unchanged, for
every input and after any number of previous forward passes. -/
theorem C89_same_output (m m' : NMod X) (exits : List (List String × NMod X)) (h : attachExits m exits = .ok m')
    (before : List X) (x : X) :
    ((before.foldl (fun m y => (m.forward y).1) m').forward x).2 = (m.forward x).2 := by
  have hb : ∀ (l : List X) (m : NMod X), (l.foldl (fun m y => (m.forward y).1) m).forward x = m.forward x := by
    intro l
    induction l with
    | nil => intro m; rfl
    | cons y l ih => intro m; simp only [List.foldl_cons, ih, forward_forward]
  rw [hb]
  induction exits generalizing m with
  | nil => simp [attachExits] at h; rw [h]
  | cons d ds ih =>
    unfold attachExits at h
    split at h
    · cases h
    · next r hr =>
      split at h
      · cases h
      · rw [ih _ h]; exact forward_replace hr (branch_same r d.2) x

/-- No exit point is another one, or inside another one. -/
def DisjointPoints (exits : List (List String × NMod X)) : Prop :=
  exits.Pairwise fun d e => ¬ d.1 <+: e.1 ∧ ¬ e.1 <+: d.1

theorem attach_spec {m m' : NMod X} {exits : List (List String × NMod X)} (h : attachExits m exits = .ok m')
    (hd : DisjointPoints exits) :
    (∀ d ∈ exits, (∃ r, m'.find d.1 = some (.branch r d.2 none)) ∧ ∀ x, m'.outputAt d.1 x = m.outputAt d.1 x) ∧
    (∀ q, (∀ d ∈ exits, ¬ d.1 <+: q ∧ ¬ q <+: d.1) → m'.find q = m.find q ∧ ∀ x, m'.outputAt q x = m.outputAt q x) := by
  induction exits generalizing m with
  | nil => simp [attachExits] at h; subst h; simp
  | cons d ds ih =>
    unfold attachExits at h
    split at h
    · cases h
    · next r hr =>
      split at h
      · cases h
      · have hd' := List.pairwise_cons.1 hd
        obtain ⟨i1, i2⟩ := ih h hd'.2
        refine ⟨?_, ?_⟩
        · intro e he
          rcases List.mem_cons.1 he with rfl | he
          · obtain ⟨j1, j2⟩ := i2 e.1 (fun g hg => ⟨(hd'.1 g hg).2, (hd'.1 g hg).1⟩)
            refine ⟨⟨r, by rw [j1]; exact find_replace_self hr⟩, fun x => ?_⟩
            rw [j2]; exact outputAt_replace hr (branch_same r e.2) (.inl rfl) x
          · obtain ⟨j1, j2⟩ := i1 e he
            refine ⟨j1, fun x => ?_⟩
            rw [j2]
            exact outputAt_replace hr (branch_same r d.2) (.inr (hd'.1 e he)) x
        · intro q hq
          obtain ⟨j1, j2⟩ := i2 q (fun g hg => hq g (by simp [hg]))
          have hdq := hq d (by simp)
          refine ⟨by rw [j1]; exact find_replace_other hdq.1 hdq.2, fun x => ?_⟩
          rw [j2]; exact outputAt_replace hr (branch_same r d.2) (.inr hdq) x

theorem mapM_ok {α β : Type} {f : α → Except Err β} {g : α → β} (l : List α) (h : ∀ a ∈ l, f a = .ok (g a)) :
    l.mapM f = .ok (l.map g) := by
  induction l with
  | nil => rfl
  | cons a l ih =>
    rw [List.mapM_cons, h a (by simp), ih (fun b hb => h b (by simp [hb]))]; rfl

/-- **C89** (exit outputs) With exit points none of which lies inside another, after any number of forward
passes `get_exits_outputs` returns, in the order of the exits, each branch applied to the activation the exit
point produced *in the last pass*. -/
theorem C89_exit_outputs (m m' : NMod X) (exits : List (List String × NMod X)) (hd : DisjointPoints exits)
    (h : attachExits m exits = .ok m') (before : List X) (x : X) :
    ∃ outs, getExitsOutputs ((before.foldl (fun m y => (m.forward y).1) m').forward x).1 (exits.map Prod.fst) = .ok outs ∧
      outs.length = exits.length ∧
      ∀ (i : ℕ) (d : List String × NMod X), exits[i]? = some d →
        ∃ a, m.outputAt d.1 x = some a ∧ outs[i]? = some (d.2.forward a).2 := by
  have hb : ∀ (l : List X) (m : NMod X), (l.foldl (fun m y => (m.forward y).1) m).forward x = m.forward x := by
    intro l
    induction l with
    | nil => intro m; rfl
    | cons y l ih => intro m; simp only [List.foldl_cons, ih, forward_forward]
  rw [hb]
  obtain ⟨i1, -⟩ := attach_spec h hd
  have key : ∀ d ∈ exits, ∃ a, m.outputAt d.1 x = some a ∧
      ∃ i b, (m'.forward x).1.find d.1 = some (.branch i b (some (d.2.forward a).2)) := by
    intro d hdm
    obtain ⟨⟨r, hr⟩, ho⟩ := i1 d hdm
    obtain ⟨y, e1, e2⟩ := find_forward hr x
    rw [ho x] at e2
    exact ⟨_, e2, _, _, e1⟩
  classical
  refine ⟨exits.map fun d => (d.2.forward ((m.outputAt d.1 x).getD x)).2, ?_, by simp, ?_⟩
  · unfold getExitsOutputs
    rw [show exits.map (fun d => (d.2.forward ((m.outputAt d.1 x).getD x)).2) = exits.map (fun d => (d.2.forward ((m.outputAt d.1 x).getD x)).2) from rfl]
    clear i1 hd h
    induction exits with
    | nil => rfl
    | cons d ds ih =>
      obtain ⟨a, e1, i, b, e2⟩ := key d (by simp)
      rw [List.map_cons, List.mapM_cons, ih (fun d hd => key d (by simp [hd])), e2]
      simp [e1, bind, Except.bind, pure, Except.pure]
  · intro i d hi
    obtain ⟨a, e1, -⟩ := key d (List.mem_of_getElem? hi)
    exact ⟨a, e1, by simp [hi, e1]⟩

/-- a two-layer container with a head -/
def exMod : NMod ℕ := .cons "body" (.cons "a" (.leaf (· + 1)) (.cons "b" (.leaf (· * 2)) .nil)) (.cons "fc" (.leaf (· + 10)) .nil)
def exBranch : NMod ℕ := .cons "h" (.leaf (· + 100)) .nil

-- non-vacuity: two exits
example : ∃ m', attachExits exMod [(["body", "a"], exBranch), (["fc"], .leaf (· * 1000))] = .ok m' ∧
    (m'.forward 3).2 = 18 ∧ getExitsOutputs (m'.forward 3).1 [["body", "a"], ["fc"]] = .ok [104, 18000] ∧
    getExitsOutputs m' [["body", "a"]] = .error .assertion := ⟨_, rfl, by decide, by decide, by decide⟩
example : DisjointPoints [(["body", "a"], exBranch), (["fc"], exBranch)] := by
  unfold DisjointPoints; simp

/-- **C89** (nested exit points) An exit point inside an earlier one is refused; the other way round
`attach_exits` accepts, but `get_exits_outputs` then always raises `AttributeError`.  Two exits at the same
point: the first branch's output is lost and the second is returned twice. -/
theorem C89_violated_nested : ∃ (m m2 m3 : NMod ℕ) (b1 b2 : NMod ℕ),
    attachExits m [(["body"], b1), (["body", "a"], b2)] = .error .assertion ∧
    attachExits m [(["body", "a"], b2), (["body"], b1)] = .ok m2 ∧
    (∀ x, getExitsOutputs (m2.forward x).1 [["body", "a"], ["body"]] = .error .attribute) ∧
    attachExits m [(["fc"], b1), (["fc"], b2)] = .ok m3 ∧
    ∀ x, ∃ o, getExitsOutputs (m3.forward x).1 [["fc"], ["fc"]] = .ok [o, o] :=
  ⟨exMod, _, _, exBranch, exBranch, rfl, rfl, fun _ => rfl, rfl, fun _ => ⟨_, rfl⟩⟩

theorem find_clear {m : NMod X} {p q : List String} {i b : NMod X} {o : Option X} (h : m.find q = some (.branch i b o)) :
    ∃ i' b' o', (m.clearAt p).find q = some (.branch i' b' o') ∧ (p = q → o' = none) ∧ (o = none → o' = none) := by
  induction m generalizing p q with
  | leaf f => cases q with
    | nil => simp [find] at h
    | cons a as => simp [find] at h
  | nil => cases q with
    | nil => simp [find] at h
    | cons a as => simp [find] at h
  | cons n c r ihc ihr => cases q with
    | nil => simp [find] at h
    | cons a as => cases p with
      | nil => exact ⟨i, b, o, by simpa [clearAt] using h, by simp, id⟩
      | cons a' as' =>
        simp only [find] at h
        simp only [clearAt]
        by_cases hn : a' = n
        · simp only [hn, if_true, find]
          by_cases ha : a = n
          · simp only [ha, if_true] at h ⊢
            obtain ⟨i', b', o', h1, h2, h3⟩ := ihc (p := as') h
            exact ⟨i', b', o', h1, fun hx => h2 (by simp at hx; exact hx), h3⟩
          · simp only [if_neg ha] at h ⊢
            exact ⟨i, b, o, h, fun hx => by simp at hx; exact absurd hx.1.symm ha, id⟩
        · simp only [if_neg hn, find]
          by_cases ha : a = n
          · simp only [ha, if_true] at h ⊢
            exact ⟨i, b, o, h, fun hx => by simp at hx; exact absurd hx.1 hn, id⟩
          · simp only [if_neg ha] at h ⊢
            exact ihr h
  | branch i0 b0 o0 ihi ihb => cases q with
    | nil =>
      simp [find] at h
      obtain ⟨rfl, rfl, rfl⟩ := h
      cases p with
      | nil => exact ⟨i0, b0, none, by simp [clearAt, find], fun _ => rfl, fun _ => rfl⟩
      | cons a as =>
        simp only [clearAt]
        split
        · exact ⟨_, _, o0, rfl, by simp, id⟩
        · split
          · exact ⟨_, _, o0, rfl, by simp, id⟩
          · exact ⟨_, _, o0, rfl, by simp, id⟩
    | cons a as => cases p with
      | nil => exact ⟨i, b, o, by simpa [clearAt, find] using h, by simp, id⟩
      | cons a' as' =>
        simp only [find] at h
        simp only [clearAt]
        by_cases ha : a = "branched_module"
        · simp only [ha, if_true] at h
          by_cases hn : a' = "branched_module"
          · simp only [hn, if_true, find, ha]
            obtain ⟨i', b', o', h1, h2, h3⟩ := ihi (p := as') h
            exact ⟨i', b', o', h1, fun hx => h2 (by simpa using hx), h3⟩
          · refine ⟨i, b, o, ?_, fun hx => by simp at hx; exact absurd (hx.1.trans ha) hn, id⟩
            simp only [if_neg hn]
            split <;> simp only [find, ha, if_true, h]
        · simp only [if_neg ha] at h
          by_cases ha2 : a = "branch_net"
          · simp only [ha2, if_true] at h
            by_cases hn : a' = "branched_module"
            · refine ⟨i, b, o, ?_, fun hx => by simp at hx; rw [← hx.1] at ha; exact absurd hn ha, id⟩
              simp only [hn, if_true, find, if_neg ha, ha2, h]
              simp
            · by_cases hn2 : a' = "branch_net"
              · simp only [if_neg hn, hn2, if_true, find, ha2]
                simp only [show ¬ ("branch_net" = "branched_module") by decide, if_false]
                obtain ⟨i', b', o', h1, h2, h3⟩ := ihb (p := as') h
                exact ⟨i', b', o', h1, fun hx => h2 (by simpa using hx), h3⟩
              · refine ⟨i, b, o, ?_, fun hx => by simp at hx; exact absurd (hx.1.trans ha2) hn2, id⟩
                simp only [if_neg hn, if_neg hn2, find, if_neg ha, ha2, if_true, h]
                simp
          · simp only [if_neg ha2] at h; cases h

/-- **C89** (deletion) After `delete_exits_outputs`, every attached exit's cached output is gone:
`get_exits_outputs` of any of them raises `AssertionError` until the next forward pass. -/
theorem C89_deleted (m : NMod X) (points : List (List String)) (p : List String) (hp : p ∈ points)
    (hattached : ∃ i b o, m.find p = some (.branch i b o)) (rest : List (List String)) :
    getExitsOutputs (deleteExitsOutputs m points) (p :: rest) = .error .assertion := by
  have key : ∀ (ps : List (List String)) (m : NMod X) (i b : NMod X) (o : Option X), m.find p = some (.branch i b o) →
      (p ∈ ps ∨ o = none) → ∃ i b, (deleteExitsOutputs m ps).find p = some (.branch i b none) := by
    intro ps
    induction ps with
    | nil => intro m i b o h hor; simp at hor; subst hor; exact ⟨i, b, h⟩
    | cons q ps ih =>
      intro m i b o h hor
      obtain ⟨i', b', o', h1, h2, h3⟩ := find_clear (p := q) h
      refine ih (m.clearAt q) i' b' o' h1 ?_
      rcases hor with hor | hor
      · rcases List.mem_cons.1 hor with rfl | hor
        · exact .inr (h2 rfl)
        · exact .inl hor
      · exact .inr (h3 hor)
  obtain ⟨i, b, o, h⟩ := hattached
  obtain ⟨i', b', h'⟩ := key points m i b o h (.inl hp)
  unfold getExitsOutputs
  rw [List.mapM_cons, h']
  rfl

end Verif
