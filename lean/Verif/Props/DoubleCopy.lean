import Verif.Props.Modes
/-!
# C04: double copies with any number of policies and over whole training histories
-/
namespace Verif
open Dict

/-! ## Specification -/

def Policy.isPrune : Policy → Bool
  | .prune _ _ _ => true
  | _ => false

/-- The pruning policies among the policies active in epoch `e` (with repetitions). -/
def State.pruningIn (st : State) (e : Int) : List Nat :=
  (st.sched.active e).filter fun q => (st.pols q).isPrune

/-- A training run, one item per epoch boundary or minibatch; `update` is the optimizer step. -/
inductive Item where
  | epochBegin (e : Int)
  | minibatch (e : Int) (mb mpe : Nat) (update : Name → Tensor → Tensor)
  | epochEnd (e : Int)

/-- The callbacks of a minibatch in the order of the training loop. -/
def Item.events : Item → List Ev
  | .epochBegin e => [.epochBegin e]
  | .minibatch e mb mpe f => [.mbBegin e mb mpe, .beforeOpt e mb mpe, .write f, .mbEnd e mb mpe]
  | .epochEnd e => [.epochEnd e]

/-! ## One policy's turn -/

/-- Policies, schedule and the set of parameters are unchanged. -/
structure Frame (st st' : State) : Prop where
  pols : st'.pols = st.pols
  sched : st'.sched.policies = st.sched.policies
  names : st'.store.names = st.store.names

theorem Frame.rfl' {st : State} : Frame st st := ⟨rfl, rfl, rfl⟩
theorem Frame.trans {a b c : State} (h1 : Frame a b) (h2 : Frame b c) : Frame a c :=
  ⟨h2.pols.trans h1.pols, h2.sched.trans h1.sched, h2.names.trans h1.names⟩

theorem mbBegin_turn {env : Env} {e : Int} {mb mpe : Nat} {st st' : State} {q : Nat}
    (hnd : st.store.names.Nodup) (h : policyMbBegin env e mb mpe st q = .ok st') :
    Frame st st' ∧ ((st.pols q).isPrune = false → st'.store = st.store) ∧
    ∀ cfg a b, st.pols q = .prune cfg a b → cfg.foldBn = false → ∀ n ∈ st.store.names, ∃ m k w,
      st.store.maskers.get? n = some m ∧ st.store.params.get? n = some w ∧
      (setMasksNow cfg e mb mpe = false → k = m.mask) ∧
      st'.store.params.get? n = some (({ m with mask := k } : Masker).maskTensor w) ∧
      st'.store.maskers.get? n = some (({ m with mask := k } : Masker).applyMask w).1 := by
  unfold policyMbBegin at h
  obtain ⟨⟨st1, mt⟩, h1, h⟩ := ok_bind h
  obtain ⟨t1, t2, t3⟩ := touch_spec h1
  dsimp only at h
  rw [t1] at h
  cases hp : st.pols q with
  | prune cfg a b =>
    simp only [hp] at h
    obtain ⟨s, hs, h⟩ := ok_bind h
    injection h with h; subst h
    have hl := pruneMbBeginBody_local env q cfg (setMasksNow cfg e mb mpe) mt
    rw [t2] at hs
    refine ⟨⟨rfl, t3, forParams_names (fun s n s' hn => hl.names hn) hs⟩, by simp [Policy.isPrune], ?_⟩
    intro cfg' a' b' heq hfold n hn
    injection heq with heq; subst heq
    obtain ⟨t, t', ht, hb, ht'⟩ := hl.forParams_at hnd hs hn
    injection ht with ta tb
    injection ht' with ta' tb'
    obtain ⟨w, hw⟩ := Option.isSome_iff_exists.1 ((get?_isSome_iff st.store.params n).2 hn)
    have htw : t.param n = w := by simp [Store.param, ta, hw]
    obtain ⟨m, k, hm, hk, ⟨w', hf, _⟩ | ⟨_, hpar, hmask⟩⟩ := pruneMbBeginBody_spec hb
    · simp [hfold] at hf
    rw [htw] at hpar hmask
    refine ⟨m, k, w, by rw [← tb]; exact hm, hw, hk, ?_, ?_⟩
    · show s.params.get? n = _
      rw [← ta', hpar]; simp
    · show s.maskers.get? n = _
      rw [← tb', hmask]; simp
  | reg k t l =>
    simp only [hp] at h
    injection h with h; subst h
    exact ⟨⟨t1, t3, by rw [t2]⟩, fun _ => t2, by intro _ _ _ hc; cases hc⟩
  | other =>
    simp only [hp] at h
    injection h with h; subst h
    exact ⟨⟨t1, t3, by rw [t2]⟩, fun _ => t2, by intro _ _ _ hc; cases hc⟩

theorem beforeOpt_turn {e : Int} {st st' : State} {q : Nat}
    (hnd : st.store.names.Nodup) (h : policyBeforeOpt e st q = .ok st') :
    Frame st st' ∧ ((st.pols q).isPrune = false → st'.store = st.store) ∧
    ((st.pols q).isPrune = true → ∀ n ∈ st.store.names, ∃ m w,
      st.store.maskers.get? n = some m ∧ st.store.params.get? n = some w ∧
      st'.store.params.get? n = some (m.revertWeights w).2 ∧
      st'.store.maskers.get? n = some (m.revertWeights w).1) := by
  unfold policyBeforeOpt at h
  obtain ⟨⟨st1, mt⟩, h1, h⟩ := ok_bind h
  obtain ⟨t1, t2, t3⟩ := touch_spec h1
  dsimp only at h
  rw [t1] at h
  cases hp : st.pols q with
  | prune cfg a b =>
    simp only [hp] at h
    obtain ⟨s, hs, h⟩ := ok_bind h
    injection h with h; subst h
    rw [t2] at hs
    refine ⟨⟨rfl, t3, forParams_names (fun s n s' hn => revertBody_local.names hn) hs⟩, by simp [Policy.isPrune], ?_⟩
    intro _ n hn
    obtain ⟨t, t', ht, hb, ht'⟩ := revertBody_local.forParams_at hnd hs hn
    injection ht with ta tb
    injection ht' with ta' tb'
    obtain ⟨w, hw⟩ := Option.isSome_iff_exists.1 ((get?_isSome_iff st.store.params n).2 hn)
    have htw : t.param n = w := by simp [Store.param, ta, hw]
    unfold revertBody at hb
    obtain ⟨m, hm, hb⟩ := ok_bind hb
    injection hb with hb
    rw [htw] at hb
    refine ⟨m, w, by rw [← tb]; exact getE_ok hm, hw, ?_, ?_⟩
    · show s.params.get? n = _
      rw [← ta', ← hb]; simp
    · show s.maskers.get? n = _
      rw [← tb', ← hb]; simp
  | reg k t l =>
    simp only [hp] at h
    injection h with h; subst h
    exact ⟨⟨t1, t3, by rw [t2]⟩, fun _ => t2, by simp [Policy.isPrune]⟩
  | other =>
    simp only [hp] at h
    injection h with h; subst h
    exact ⟨⟨t1, t3, by rw [t2]⟩, fun _ => t2, by simp [Policy.isPrune]⟩

/-! ## All policies of an epoch -/

theorem mbFold_frame {env : Env} {e : Int} {mb mpe : Nat} {l : List Nat} {st st' : State}
    (hnd : st.store.names.Nodup) (h : l.foldlM (policyMbBegin env e mb mpe) st = .ok st') : Frame st st' :=
  foldlM_preserves (P := fun t => Frame st t)
    (fun t q t' _ ht hf => ht.trans (mbBegin_turn (by rw [ht.names]; exact hnd) hf).1) Frame.rfl' h

theorem optFold_frame {e : Int} {l : List Nat} {st st' : State}
    (hnd : st.store.names.Nodup) (h : l.foldlM (policyBeforeOpt e) st = .ok st') : Frame st st' :=
  foldlM_preserves (P := fun t => Frame st t)
    (fun t q t' _ ht hf => ht.trans (beforeOpt_turn (by rw [ht.names]; exact hnd) hf).1) Frame.rfl' h

theorem mbFold_none {env : Env} {e : Int} {mb mpe : Nat} {l : List Nat} {st st' : State}
    (hnd : st.store.names.Nodup) (hl : ∀ q ∈ l, (st.pols q).isPrune = false)
    (h : l.foldlM (policyMbBegin env e mb mpe) st = .ok st') : st'.store = st.store :=
  (foldlM_preserves (P := fun t => Frame st t ∧ t.store = st.store)
    (fun t q t' hq ht hf => by
      obtain ⟨f, g, -⟩ := mbBegin_turn (by rw [ht.1.names]; exact hnd) hf
      exact ⟨ht.1.trans f, (g (by rw [ht.1.pols]; exact hl q hq)).trans ht.2⟩) ⟨Frame.rfl', rfl⟩ h).2

theorem optFold_none {e : Int} {l : List Nat} {st st' : State}
    (hnd : st.store.names.Nodup) (hl : ∀ q ∈ l, (st.pols q).isPrune = false)
    (h : l.foldlM (policyBeforeOpt e) st = .ok st') : st'.store = st.store :=
  (foldlM_preserves (P := fun t => Frame st t ∧ t.store = st.store)
    (fun t q t' hq ht hf => by
      obtain ⟨f, g, -⟩ := beforeOpt_turn (by rw [ht.1.names]; exact hnd) hf
      exact ⟨ht.1.trans f, (g (by rw [ht.1.pols]; exact hl q hq)).trans ht.2⟩) ⟨Frame.rfl', rfl⟩ h).2

theorem filter_single {f : Nat → Bool} {l : List Nat} {p : Nat} (h : l.filter f = [p]) :
    ∃ l1 l2, l = l1 ++ p :: l2 ∧ (∀ x ∈ l1, f x = false) ∧ f p = true ∧ ∀ x ∈ l2, f x = false := by
  obtain ⟨l1, l2, h1, h2, h3, h4⟩ := List.filter_eq_cons_iff.1 h
  refine ⟨l1, l2, h1, fun x hx => by simpa using h2 x hx, h3, fun x hx => ?_⟩
  have := List.filter_eq_nil_iff.1 h4 x hx
  simpa using this

/-- **C04** (partial: exactly one of the policies active in the epoch is a pruning policy, listed once, and it does not
fold batch normalization) With any number of other policies (learning rate, distillation, regularization): if every
parameter is in double-copy mode and no copy is stored, then `before_parameter_optimization` gives the optimizer
exactly the weights that were in the model when `on_minibatch_begin` was called, and afterwards no copy is stored. -/
theorem C04_one_pruning_policy_partial (env : Env) (st st1 st2 : State) (e : Int)
    (mb mpe p : Nat) (cfg : PruneCfg) (a b : Bool)
    (hact : st.pruningIn e = [p]) (hp : st.pols p = .prune cfg a b) (hfold : cfg.foldBn = false)
    (hnd : (st.store.params.map Prod.fst).Nodup)
    (hdbl : ∀ n ∈ st.store.params.map Prod.fst, ∀ m, st.store.maskers.get? n = some m → m.dbl = true ∧ m.copy = none)
    (h1 : onMbBegin env st e mb mpe = .ok st1) (h2 : beforeOpt st1 e = .ok st2) :
    (∀ n, st2.store.params.get? n = st.store.params.get? n) ∧
    (∀ n ∈ st.store.params.map Prod.fst, ∀ m, st2.store.maskers.get? n = some m → m.dbl = true ∧ m.copy = none) := by
  obtain ⟨l1, l2, hl, hl1, -, hl2⟩ := filter_single hact
  have hnd' : st.store.names.Nodup := hnd
  have F1 := mbFold_frame hnd' h1
  have hact1 : st1.sched.active e = st.sched.active e := by unfold Sched.active; rw [F1.sched]
  unfold beforeOpt at h2
  rw [hact1] at h2
  have F2 := optFold_frame (by rw [F1.names]; exact hnd') h2
  have F := F1.trans F2
  unfold onMbBegin at h1
  rw [hl] at h1 h2
  -- split both loops around `p`
  rw [List.foldlM_append] at h1 h2
  obtain ⟨s1, a1, h1⟩ := ok_bind h1
  rw [List.foldlM_cons] at h1
  obtain ⟨s2, a2, a3⟩ := ok_bind h1
  obtain ⟨s3, b1, h2⟩ := ok_bind h2
  rw [List.foldlM_cons] at h2
  obtain ⟨s4, b2, b3⟩ := ok_bind h2
  have G1 := mbFold_frame hnd' a1
  have e1 := mbFold_none hnd' hl1 a1
  have nd1 : s1.store.names.Nodup := by rw [G1.names]; exact hnd'
  obtain ⟨G2, -, turn⟩ := mbBegin_turn nd1 a2
  have G12 := G1.trans G2
  have e3 := mbFold_none (by rw [G12.names]; exact hnd') (by rw [G12.pols]; exact hl2) a3
  have G3 := optFold_frame (by rw [F1.names]; exact hnd') b1
  have e4 := optFold_none (by rw [F1.names]; exact hnd') (by rw [F1.pols]; exact hl1) b1
  have G13 := F1.trans G3
  obtain ⟨G4, -, turn2⟩ := beforeOpt_turn (by rw [G13.names]; exact hnd') b2
  have G14 := G13.trans G4
  have e6 := optFold_none (by rw [G14.names]; exact hnd') (by rw [G14.pols]; exact hl2) b3
  have key : ∀ n ∈ st.store.names, st2.store.params.get? n = st.store.params.get? n ∧
      ∀ m, st2.store.maskers.get? n = some m → m.dbl = true ∧ m.copy = none := by
    intro n hn
    obtain ⟨m, k, w, hm, hw, -, c1, c2⟩ := turn cfg a b (by rw [G1.pols]; exact hp) hfold n (by rw [G1.names]; exact hn)
    obtain ⟨m', w', hm', hw', d1, d2⟩ := turn2 (by rw [G13.pols, hp]; rfl) n (by rw [G13.names]; exact hn)
    rw [e1] at hm hw
    rw [e4, e3, c2] at hm'
    rw [e4, e3, c1] at hw'
    injection hm' with hm'; injection hw' with hw'
    have hmd := hdbl n hn m hm
    rw [e6, d1, d2, hw, ← hm', ← hw']
    cases k with
    | none => simp [Masker.applyMask, Masker.revertWeights, Masker.maskTensor, hmd]
    | some k => cases hr : m.isReg <;> simp [Masker.applyMask, Masker.revertWeights, hmd]
  refine ⟨fun n => ?_, fun n hn m => (key n hn).2 m⟩
  by_cases hn : n ∈ st.store.names
  · exact (key n hn).1
  · have hn' : n ∉ st2.store.names := by rw [F.names]; exact hn
    rw [(get?_eq_none_iff _ _).2 hn', (get?_eq_none_iff _ _).2 hn]

/-! ## Two pruning policies -/

/-- Masks installed before, weights masked: what later turns keep. -/
private def Lost (k : Tensor) (n : Name) (again : Bool) (s : Store) : Prop :=
  ∃ m w c, s.maskers.get? n = some m ∧ s.params.get? n = some w ∧ m.dbl = true ∧ m.isReg = false ∧ m.mask = some k ∧
    m.copy = some c ∧ ZeroWhere k w ∧ (again = true → ZeroWhere k c)

private theorem lost_turn {k : Tensor} {m : Masker} {w : Tensor} (hd : m.dbl = true) (hr : m.isReg = false)
    (hk : m.mask = some k) :
    (m.applyMask w).1.dbl = true ∧ (m.applyMask w).1.isReg = false ∧ (m.applyMask w).1.mask = some k ∧
    (m.applyMask w).1.copy = some w ∧ ZeroWhere k (m.maskTensor w) := by
  refine ⟨by rw [applyMask_dbl, hd], by rw [applyMask_isReg, hr], ?_, ?_, zeroWhere_maskTensor hk w⟩ <;>
  simp [Masker.applyMask, hk, hd, hr]

private theorem lost_fold {env : Env} {e : Int} {mb mpe : Nat} {k : Tensor} {n : Name} (l : List Nat)
    {again : Bool} {st st' : State} (hnd : st.store.names.Nodup) (hn : n ∈ st.store.names)
    (hl : ∀ q ∈ l, ∀ cfg a b, st.pols q = .prune cfg a b → cfg.foldBn = false ∧ setMasksNow cfg e mb mpe = false)
    (hs : Lost k n again st.store) (h : l.foldlM (policyMbBegin env e mb mpe) st = .ok st') :
    Lost k n (again || l.any fun q => (st.pols q).isPrune) st'.store := by
  induction l generalizing st again with
  | nil => simp [pure, Except.pure] at h; subst h; simpa using hs
  | cons q l ih =>
    rw [List.foldlM_cons] at h
    obtain ⟨s1, h1, h2⟩ := ok_bind h
    obtain ⟨F, g1, g2⟩ := mbBegin_turn hnd h1
    have step : Lost k n (again || (st.pols q).isPrune) s1.store := by
      cases hp : st.pols q with
      | prune cfg a b =>
        obtain ⟨hf, hm⟩ := hl q (by simp) cfg a b hp
        obtain ⟨m', k', w', c1, c2, c3, c4, c5⟩ := g2 cfg a b hp hf n hn
        obtain ⟨m, w, c, d1, d2, d3, d4, d5, d6, d7, -⟩ := hs
        rw [d1] at c1; injection c1 with c1; subst c1
        rw [d2] at c2; injection c2 with c2; subst c2
        have hk' := c3 hm
        subst hk'
        obtain ⟨r1, r2, r3, r4, r5⟩ := lost_turn (w := w) d3 d4 d5
        exact ⟨_, _, _, c5, c4, r1, r2, r3, r4, r5, fun _ => d7⟩
      | reg x y z =>
        rw [g1 (by rw [hp]; rfl)]; simpa [Policy.isPrune] using hs
      | other =>
        rw [g1 (by rw [hp]; rfl)]; simpa [Policy.isPrune] using hs
    have := ih (by rw [F.names]; exact hnd) (by rw [F.names]; exact hn)
      (by intro r hr; rw [F.pols]; exact hl r (by simp [hr])) step h2
    rw [F.pols] at this
    simpa [Bool.or_assoc] using this

private theorem lost_revert {e : Int} {k : Tensor} {n : Name} (l : List Nat) {st st' : State}
    (hnd : st.store.names.Nodup) (hn : n ∈ st.store.names)
    (hs : ∃ m w, st.store.maskers.get? n = some m ∧ st.store.params.get? n = some w ∧ ZeroWhere k w ∧
      ∀ c, m.copy = some c → ZeroWhere k c)
    (h : l.foldlM (policyBeforeOpt e) st = .ok st') :
    ∃ w, st'.store.params.get? n = some w ∧ ZeroWhere k w := by
  induction l generalizing st with
  | nil =>
    simp [pure, Except.pure] at h; subst h
    obtain ⟨m, w, _, h2, h3, _⟩ := hs
    exact ⟨w, h2, h3⟩
  | cons q l ih =>
    rw [List.foldlM_cons] at h
    obtain ⟨s1, h1, h2⟩ := ok_bind h
    obtain ⟨F, g1, g2⟩ := beforeOpt_turn hnd h1
    refine ih (by rw [F.names]; exact hnd) (by rw [F.names]; exact hn) ?_ h2
    cases hp : (st.pols q).isPrune with
    | false => rw [g1 hp]; exact hs
    | true =>
      obtain ⟨m', w', c1, c2, c3, c4⟩ := g2 hp n hn
      obtain ⟨m, w, d1, d2, d3, d4⟩ := hs
      rw [d1] at c1; injection c1 with c1; subst c1
      rw [d2] at c2; injection c2 with c2; subst c2
      refine ⟨_, _, c4, c3, ?_, ?_⟩
      · unfold Masker.revertWeights
        split
        · exact d3
        · cases hc : m.copy with
          | none => exact d3
          | some c => exact d4 c hc
      · intro c hc
        unfold Masker.revertWeights at hc
        split at hc
        · exact d4 c hc
        · cases hc' : m.copy with
          | none => rw [hc'] at hc; simp [hc'] at hc
          | some c' => rw [hc'] at hc; simp at hc

/-- **C04 fails always** when two or more pruning policies are active in the epoch (or one policy is listed twice for
it): whatever the policies, pruners and weights, in double-copy mode the optimizer sees weights which are zero
wherever the mask is zero, instead of the weights of the model before the minibatch. (Minibatches in which no policy
recomputes masks; no batch-norm folding.) -/
theorem C04_violated_always (env : Env) (st st1 st2 : State) (e : Int) (mb mpe : Nat)
    (htwo : 2 ≤ (st.pruningIn e).length)
    (hcfg : ∀ q ∈ st.sched.active e, ∀ cfg a b, st.pols q = .prune cfg a b →
      cfg.foldBn = false ∧ setMasksNow cfg e mb mpe = false)
    (hnd : (st.store.params.map Prod.fst).Nodup) (n : Name) (hn : n ∈ st.store.params.map Prod.fst)
    (m : Masker) (k : Tensor) (hm : st.store.maskers.get? n = some m) (hk : m.mask = some k) (hd : m.dbl = true)
    (hr : m.isReg = false)
    (h1 : onMbBegin env st e mb mpe = .ok st1) (h2 : beforeOpt st1 e = .ok st2) :
    ∃ w, st2.store.params.get? n = some w ∧ ZeroWhere k w := by
  have hnd' : st.store.names.Nodup := hnd
  have hn' : n ∈ st.store.names := hn
  have F1 := mbFold_frame hnd' h1
  have hact1 : st1.sched.active e = st.sched.active e := by unfold Sched.active; rw [F1.sched]
  unfold beforeOpt at h2
  rw [hact1] at h2
  unfold onMbBegin at h1
  -- the first pruning policy
  obtain ⟨p, rest, hrest⟩ : ∃ p rest, st.pruningIn e = p :: rest := by
    cases hh : st.pruningIn e with
    | nil => rw [hh] at htwo; simp at htwo
    | cons p rest => exact ⟨p, rest, rfl⟩
  obtain ⟨l1, l2, hl, hl1, hp, hl2⟩ := List.filter_eq_cons_iff.1 hrest
  have hany : l2.any (fun q => (st.pols q).isPrune) = true := by
    rw [hrest] at htwo
    rw [← hl2] at htwo
    cases hf : l2.filter (fun q => (st.pols q).isPrune) with
    | nil => rw [hf] at htwo; simp at htwo
    | cons x xs =>
      have : x ∈ l2.filter (fun q => (st.pols q).isPrune) := by rw [hf]; simp
      rw [List.mem_filter] at this
      rw [List.any_eq_true]
      exact ⟨x, this.1, this.2⟩
  rw [hl] at h1
  rw [List.foldlM_append] at h1
  obtain ⟨s1, a1, h1⟩ := ok_bind h1
  rw [List.foldlM_cons] at h1
  obtain ⟨s2, a2, a3⟩ := ok_bind h1
  have G1 := mbFold_frame hnd' a1
  have e1 := mbFold_none hnd' (fun q hq => by simpa using hl1 q hq) a1
  obtain ⟨G2, -, turn⟩ := mbBegin_turn (by rw [G1.names]; exact hnd') a2
  have G12 := G1.trans G2
  have hlost : Lost k n false s2.store := by
    cases hpp : st.pols p with
    | prune cfg a b =>
      obtain ⟨hf, hs⟩ := hcfg p (by rw [hl]; simp) cfg a b hpp
      obtain ⟨m', k', w', c1, c2, c3, c4, c5⟩ := turn cfg a b (by rw [G1.pols]; exact hpp) hf n (by rw [G1.names]; exact hn')
      rw [e1, hm] at c1; injection c1 with c1; subst c1
      have := c3 hs; subst this
      obtain ⟨r1, r2, r3, r4, r5⟩ := lost_turn (w := w') hd hr hk
      exact ⟨_, _, _, c5, c4, r1, r2, r3, r4, r5, by simp⟩
    | reg x y z => rw [hpp] at hp; cases hp
    | other => rw [hpp] at hp; cases hp
  have hfin := lost_fold l2 (by rw [G12.names]; exact hnd') (by rw [G12.names]; exact hn')
    (by intro q hq; rw [G12.pols]; exact hcfg q (by rw [hl]; simp [hq])) hlost a3
  rw [G12.pols, hany] at hfin
  obtain ⟨m1, w1, c1, d1, d2, d3, d4, d5, d6, d7, d8⟩ := hfin
  refine lost_revert _ (by rw [F1.names]; exact hnd') (by rw [F1.names]; exact hn') ⟨m1, w1, d1, d2, d7, ?_⟩ h2
  intro c hc
  rw [d6] at hc; injection hc with hc; subst hc
  exact d8 (by simp)

/-- One policy listed twice (its epoch list repeats the epoch), or two policies: both meet the hypotheses. -/
example : (State.pruningIn ⟨{ params := [], maskers := [] },
    (Sched.addPolicy (Sched.addPolicy {} { policy := 0, starting := some 0, ending := some 3 }).1
      { policy := 1, epochs := some [1, 1] }).1, fun q => if q = 0 then .other else .prune {} false false⟩ 1) = [1, 1] := by
  decide +kernel

/-! ## Histories -/

/-- No thresholding regularizer, one pruning policy, a fresh masker for every parameter. -/
structure FreshPlain (st : State) (p : Nat) (cfg : PruneCfg) (ending : Int) : Prop extends FreshWith st p cfg ending where
  covered : ∀ n ∈ st.store.params.map Prod.fst, (st.store.maskers.get? n).isSome
  noThreshold : ∀ q keep last, st.pols q ≠ .reg keep true last

private def copyAt (s : Store) (n : Name) : Option (Option Tensor) := (s.maskers.get? n).map Masker.copy

/-- Every parameter has a masker without a stored copy. -/
private def Clean (ns : List Name) (s : Store) : Prop := s.names = ns ∧ ∀ n ∈ ns, copyAt s n = some none

private theorem clean_set {ns : List Name} {s s' : Store} {n : Name} {m : Masker} (h : Clean ns s)
    (hn : s'.names = s.names) (hm : s'.maskers = s.maskers.set n m) (hc : m.copy = none) : Clean ns s' := by
  refine ⟨hn.trans h.1, fun b hb => ?_⟩
  unfold copyAt
  rw [hm, get?_set]
  split
  · simp [hc]
  · exact h.2 b hb

private theorem clean_copy {ns : List Name} {s : Store} {n : Name} {m : Masker} (h : Clean ns s) (hn : n ∈ ns)
    (hm : s.maskers.get? n = some m) : m.copy = none := by
  have := h.2 n hn
  unfold copyAt at this
  rw [hm] at this
  simpa using this

private theorem clean_loop {ns : List Name} {body : Store → Name → Except Err Store}
    (hb : ∀ s n s', n ∈ ns → Clean ns s → body s n = .ok s' → Clean ns s') {s s' : Store} (h : Clean ns s)
    (hs : s.forParams body = .ok s') : Clean ns s' :=
  foldlM_preserves (P := Clean ns) (fun t a t' ha ht hf => hb t a t' (by rw [← h.1]; exact ha) ht hf) h hs

private theorem clean_setParamMask {ns : List Name} {env : Env} {pol : Nat} {mt : Meta} {s s' : Store} {n : Name}
    {w : Tensor} (hn : n ∈ ns) (hc : Clean ns s) (h : setParamMask env pol mt s n w = .ok s') : Clean ns s' := by
  obtain ⟨m, k, h1, h2, h3, -⟩ := setParamMask_spec h
  exact clean_set hc (by unfold Store.names; rw [h3]) h2 (by show m.copy = none; exact clean_copy hc hn h1)

private theorem initMasker_copy {cfg : PruneCfg} {f : Bool} {m m1 : Masker} (h : initMasker cfg f m = .ok m1) :
    m1.copy = m.copy := by
  unfold initMasker at h
  dsimp only at h
  split at h
  · split at h
    · cases h
    · injection h with h; subst h; rfl
  · injection h with h; subst h; rfl

private theorem clean_epochBegin {ns : List Name} (env : Env) (p : Nat) (cfg : PruneCfg) (ini : Bool) (mt : Meta) :
    ∀ s n s', n ∈ ns → Clean ns s → pruneEpochBeginBody env p cfg ini mt s n = .ok s' → Clean ns s' := by
  intro s n s' hn hc h
  unfold pruneEpochBeginBody at h
  dsimp only at h
  split at h
  · exact clean_setParamMask hn hc h
  · obtain ⟨m, hm, h⟩ := ok_bind h
    obtain ⟨m1, hm1, h⟩ := ok_bind h
    have hmc := clean_copy hc hn (getE_ok hm)
    have h1c : m1.copy = none := (initMasker_copy hm1).trans hmc
    have hc1 : Clean ns (s.setMasker n m1) := clean_set hc rfl rfl h1c
    split at h
    · injection h with h; subst h; exact hc1
    · exact clean_setParamMask hn hc1 h

private theorem clean_epochEnd {ns : List Name} (cfg : PruneCfg) :
    ∀ s n s', n ∈ ns → Clean ns s → pruneEpochEndBody cfg s n = .ok s' → Clean ns s' := by
  intro s n s' hn hc h
  unfold pruneEpochEndBody at h
  obtain ⟨m, hm, h⟩ := ok_bind h
  have hmc := clean_copy hc hn (getE_ok hm)
  injection h with h; subst h
  refine clean_set hc (names_setParam_mem (s := s.setMasker n _) _ (by rw [Store.names, Store.params_setMasker]; rw [← hc.1] at hn; exact hn)) rfl ?_
  cases cfg.keepMask <;> cases hh : m.handle <;> simp [hh, hmc]

private theorem clean_discard {ns : List Name} :
    ∀ s n s', n ∈ ns → Clean ns s → discardBody s n = .ok s' → Clean ns s' := by
  intro s n s' hn hc h
  unfold discardBody at h
  obtain ⟨m, hm, h⟩ := ok_bind h
  injection h with h; subst h
  exact clean_set hc rfl rfl (by show m.copy = none; exact clean_copy hc hn (getE_ok hm))

private theorem clean_maskAll {ns : List Name} (f : Bool) :
    ∀ s n s', n ∈ ns → Clean ns s → maskAllBody f s n = .ok s' → Clean ns s' := by
  intro s n s' hn hc h
  rcases maskAllBody_spec h with ⟨m, h1, h2, _, rfl⟩ | ⟨m, h1, h2, rfl⟩ | ⟨h1, h2, rfl⟩ | ⟨n', m, h1, h2, h3, rfl⟩
  · exact hc
  · exact ⟨(names_setParam_mem _ (by rw [hc.1]; exact hn)).trans hc.1, hc.2⟩
  · exact hc
  · have := hc.2 n hn
    unfold copyAt at this
    rw [h1] at this; cases this

/-- Between minibatches: no copies are stored, `p` is the only pruning policy, no regularizer thresholds. -/
private structure Between (p : Nat) (cfg : PruneCfg) (sched0 : Sched) (ns : List Name) (st : State) : Prop where
  pol : st.sched.policies = sched0.policies
  clean : Clean ns st.store
  mine : ∃ a b, st.pols p = .prune cfg a b
  others : ∀ q, q ≠ p → ∀ c a b, st.pols q ≠ .prune c a b
  noThr : ∀ q keep last, st.pols q ≠ .reg keep true last

section
variable {p : Nat} {cfg : PruneCfg} {sched0 : Sched} {ns : List Name} {env : Env}

private theorem Between.touch {st st' : State} {q : Nat} {e : Int} {mt : Meta} (h : Between p cfg sched0 ns st)
    (ht : touchMeta st q e = .ok (st', mt)) : Between p cfg sched0 ns st' := by
  obtain ⟨t1, t2, t3⟩ := touch_spec ht
  exact ⟨t3.trans h.pol, by rw [t2]; exact h.clean, by rw [t1]; exact h.mine, by rw [t1]; exact h.others,
    by rw [t1]; exact h.noThr⟩

private theorem Between.epochBegin {st st' : State} {e : Int} (h : Between p cfg sched0 ns st)
    (hs : onEpochBegin env st e = .ok st') : Between p cfg sched0 ns st' := by
  refine foldlM_preserves (P := Between p cfg sched0 ns) ?_ h hs
  intro t q t' _ ht hf
  unfold policyEpochBegin at hf
  obtain ⟨⟨st1, mt⟩, h1, hf⟩ := ok_bind hf
  have ht := ht.touch h1
  dsimp only at hf
  cases hp : st1.pols q with
  | prune c a b =>
    have hq : q = p := by
      by_contra hq; exact ht.others q hq c a b hp
    subst hq
    obtain ⟨a', b', hm⟩ := ht.mine
    rw [hp] at hm; injection hm with hm; subst hm
    simp only [hp] at hf
    obtain ⟨s, hs1, hf⟩ := ok_bind hf
    injection hf with hf; subst hf
    refine ⟨ht.pol, clean_loop (clean_epochBegin env q c b mt) ht.clean hs1, ⟨_, _, by simp [setPol]; exact ⟨rfl, rfl⟩⟩, ?_, ?_⟩
    · intro r hr; simp only [setPol, hr, if_false]; exact ht.others r hr
    · intro r k l
      by_cases hr : r = q
      · simp [setPol, hr]
      · simp only [setPol, hr, if_false]; exact ht.noThr r k l
  | reg k t l =>
    simp only [hp] at hf
    injection hf with hf; subst hf
    have hq : q ≠ p := by
      rintro rfl
      obtain ⟨a, b, hm⟩ := ht.mine
      rw [hm] at hp; cases hp
    refine ⟨ht.pol, ht.clean, ?_, ?_, ?_⟩
    · simp only [setPol, if_neg (fun e : p = q => hq e.symm)]; exact ht.mine
    · intro r hr c a b
      by_cases hrq : r = q
      · simp [setPol, hrq]
      · simp only [setPol, hrq, if_false]; exact ht.others r hr c a b
    · intro r k' l'
      by_cases hrq : r = q
      · simp only [setPol, hrq, if_true]
        intro hc
        injection hc with c1 c2 c3
        subst c2
        exact ht.noThr q k l hp
      · simp only [setPol, hrq, if_false]; exact ht.noThr r k' l'
  | other =>
    simp only [hp] at hf
    injection hf with hf; subst hf
    exact ht

private theorem Between.epochEnd {st st' : State} {e : Int} (h : Between p cfg sched0 ns st)
    (hs : onEpochEnd st e = .ok st') : Between p cfg sched0 ns st' := by
  refine foldlM_preserves (P := Between p cfg sched0 ns) ?_ h hs
  intro t q t' _ ht hf
  unfold policyEpochEnd at hf
  obtain ⟨⟨st1, mt⟩, h1, hf⟩ := ok_bind hf
  have ht := ht.touch h1
  dsimp only at hf
  split at hf
  · split at hf
    · obtain ⟨s, hs1, hf⟩ := ok_bind hf
      injection hf with hf; subst hf
      exact ⟨ht.pol, clean_loop (clean_epochEnd _) ht.clean hs1, ht.mine, ht.others, ht.noThr⟩
    · injection hf with hf; subst hf; exact ht
  · injection hf with hf; subst hf; exact ht

private theorem Between.mbEnd {st st' : State} {e : Int} {mb mpe : Nat} (h : Between p cfg sched0 ns st)
    (hs : onMbEnd env st e mb mpe = .ok st') : Between p cfg sched0 ns st' := by
  unfold onMbEnd at hs
  obtain ⟨s, hs1, hs⟩ := ok_bind hs
  have h0 : Between p cfg sched0 ns { st with store := s } :=
    ⟨h.pol, clean_loop (clean_maskAll false) h.clean hs1, h.mine, h.others, h.noThr⟩
  refine foldlM_preserves (P := Between p cfg sched0 ns) ?_ h0 hs
  intro t q t' _ ht hf
  unfold policyMbEnd at hf
  split at hf
  · split at hf
    · obtain ⟨s, hs1, hf⟩ := ok_bind hf
      injection hf with hf; subst hf
      exact ⟨ht.pol, clean_loop clean_discard ht.clean hs1, ht.mine, ht.others, ht.noThr⟩
    · injection hf with hf; subst hf; exact ht
  · next k hh l hq =>
    cases hh with
    | true => exact absurd hq (ht.noThr _ _ _)
    | false => injection hf with hf; subst hf; exact ht
  · injection hf with hf; subst hf; exact ht

private theorem Between.frame {st st' : State} (h : Between p cfg sched0 ns st) (F : Frame st st')
    (hc : Clean ns st'.store) : Between p cfg sched0 ns st' :=
  ⟨F.sched.trans h.pol, hc, by rw [F.pols]; exact h.mine, by rw [F.pols]; exact h.others, by rw [F.pols]; exact h.noThr⟩

/-- Maskers of `n` during the minibatch: not in double-copy mode without copy, or anything in double-copy mode. -/
private def Half (ns : List Name) (s : Store) : Prop :=
  s.names = ns ∧ ∀ n ∈ ns, ∃ m, s.maskers.get? n = some m ∧ (m.dbl = false → m.copy = none)

private theorem applyMask_copy_of (m : Masker) (w : Tensor) (h : m.dbl = false → m.copy = none) :
    (m.applyMask w).1.dbl = false → (m.applyMask w).1.copy = none := by
  intro hd
  rw [applyMask_dbl] at hd
  unfold Masker.applyMask
  cases hm : m.mask with
  | none => exact h hd
  | some k => cases hr : m.isReg <;> simp [hd, hr, h hd]

private theorem half_mb {l : List Nat} {e : Int} {mb mpe : Nat} {st st' : State} (hfold : cfg.foldBn = false)
    (hm : ∃ a b, st.pols p = .prune cfg a b) (hnd : ns.Nodup)
    (ho : ∀ q, q ≠ p → ∀ c a b, st.pols q ≠ .prune c a b) (hh : Half ns st.store)
    (h : l.foldlM (policyMbBegin env e mb mpe) st = .ok st') : Half ns st'.store := by
  refine (foldlM_preserves (P := fun t => Frame st t ∧ Half ns t.store) ?_ ⟨Frame.rfl', hh⟩ h).2
  intro t q t' _ ht hf
  obtain ⟨F, g1, g2⟩ := mbBegin_turn (by rw [ht.2.1]; exact hnd) hf
  refine ⟨ht.1.trans F, ?_⟩
  cases hp : (t.pols q).isPrune with
  | false => rw [g1 hp]; exact ht.2
  | true =>
    refine ⟨F.names.trans ht.2.1, ?_⟩
    intro n hn
    rw [ht.1.pols] at hp g2
    have hq : q = p := by
      by_contra hq
      cases hpp : st.pols q with
      | prune c a b => exact ho q hq c a b hpp
      | reg _ _ _ => rw [hpp] at hp; cases hp
      | other => rw [hpp] at hp; cases hp
    subst hq
    obtain ⟨a, b, hm⟩ := hm
    obtain ⟨m, k, w, c1, c2, -, c4, c5⟩ := g2 cfg a b hm hfold n (by rw [ht.2.1]; exact hn)
    obtain ⟨m', d1, d2⟩ := ht.2.2 n hn
    rw [c1] at d1; injection d1 with d1; subst d1
    exact ⟨_, c5, applyMask_copy_of { m with mask := k } w d2⟩

private theorem revert_copy (m : Masker) (w : Tensor) (h : m.dbl = false → m.copy = none) :
    (m.revertWeights w).1.copy = none ∧ ((m.revertWeights w).1.dbl = false → (m.revertWeights w).1.copy = none) := by
  unfold Masker.revertWeights
  cases hd : m.dbl with
  | false => simp [h hd]
  | true => cases hc : m.copy <;> simp [hc]

private theorem clean_opt {l : List Nat} {e : Int} {st st' : State} (hnd : ns.Nodup)
    (hh : Half ns st.store) (hl : Clean ns st.store ∨ ∃ q ∈ l, (st.pols q).isPrune = true)
    (h : l.foldlM (policyBeforeOpt e) st = .ok st') : Clean ns st'.store := by
  induction l generalizing st with
  | nil =>
    simp [pure, Except.pure] at h; subst h
    rcases hl with hl | ⟨q, hq, _⟩
    · exact hl
    · simp at hq
  | cons q l ih =>
    rw [List.foldlM_cons] at h
    obtain ⟨s1, h1, h2⟩ := ok_bind h
    obtain ⟨F, g1, g2⟩ := beforeOpt_turn (by rw [hh.1]; exact hnd) h1
    cases hp : (st.pols q).isPrune with
    | false =>
      refine ih (by rw [g1 hp]; exact hh) ?_ h2
      rcases hl with hl | ⟨r, hr, hrp⟩
      · exact Or.inl (by rw [g1 hp]; exact hl)
      · right
        rcases List.mem_cons.1 hr with rfl | hr
        · rw [hp] at hrp; cases hrp
        · exact ⟨r, hr, by rw [F.pols]; exact hrp⟩
    | true =>
      have key : ∀ n ∈ ns, ∃ m', s1.store.maskers.get? n = some m' ∧ m'.copy = none := by
        intro n hn
        obtain ⟨m, w, c1, c2, c3, c4⟩ := g2 hp n (by rw [hh.1]; exact hn)
        obtain ⟨m', d1, d2⟩ := hh.2 n hn
        rw [c1] at d1; injection d1 with d1; subst d1
        exact ⟨_, c4, (revert_copy m w d2).1⟩
      refine ih ⟨F.names.trans hh.1, fun n hn => ?_⟩ (Or.inl ⟨F.names.trans hh.1, fun n hn => ?_⟩) h2
      · obtain ⟨m', e1, e2⟩ := key n hn
        exact ⟨m', e1, fun _ => e2⟩
      · obtain ⟨m', e1, e2⟩ := key n hn
        simp [copyAt, e1, e2]

private theorem Between.begin_opt {st st1 st2 : State} {e : Int} {mb mpe : Nat} (hnd : ns.Nodup) (hfold : cfg.foldBn = false)
    (h : Between p cfg sched0 ns st) (h1 : onMbBegin env st e mb mpe = .ok st1) (h2 : beforeOpt st1 e = .ok st2) :
    Between p cfg sched0 ns st2 := by
  have nd : st.store.names.Nodup := by rw [h.clean.1]; exact hnd
  have F1 := mbFold_frame nd h1
  have hact1 : st1.sched.active e = st.sched.active e := by unfold Sched.active; rw [F1.sched]
  unfold beforeOpt at h2
  rw [hact1] at h2
  have F2 := optFold_frame (by rw [F1.names]; exact nd) h2
  have hhalf : Half ns st.store := by
    refine ⟨h.clean.1, fun n hn => ?_⟩
    have := h.clean.2 n hn
    unfold copyAt at this
    cases hm : st.store.maskers.get? n with
    | none => rw [hm] at this; cases this
    | some m => exact ⟨m, rfl, fun _ => clean_copy h.clean hn hm⟩
  have hhalf1 := half_mb hfold h.mine hnd h.others hhalf h1
  refine h.frame (F1.trans F2) (clean_opt hnd hhalf1 ?_ h2)
  by_cases hq : ∃ q ∈ st.sched.active e, (st.pols q).isPrune = true
  · obtain ⟨q, a, b⟩ := hq
    exact Or.inr ⟨q, a, by rw [F1.pols]; exact b⟩
  · left
    have := mbFold_none nd (l := st.sched.active e) (fun q hq' => by
      by_contra hc; exact hq ⟨q, hq', by simpa using hc⟩) h1
    rw [this]; exact h.clean

private theorem Between.item {st st' : State} {it : Item} (hnd : ns.Nodup) (hfold : cfg.foldBn = false)
    (h : Between p cfg sched0 ns st) (hs : run env st it.events = .ok st') : Between p cfg sched0 ns st' := by
  cases it with
  | epochBegin e =>
    unfold run Item.events at hs
    rw [List.foldlM_cons] at hs
    obtain ⟨s1, h1, h2⟩ := ok_bind hs
    simp [pure, Except.pure] at h2; subst h2
    exact h.epochBegin h1
  | epochEnd e =>
    unfold run Item.events at hs
    rw [List.foldlM_cons] at hs
    obtain ⟨s1, h1, h2⟩ := ok_bind hs
    simp [pure, Except.pure] at h2; subst h2
    exact h.epochEnd h1
  | minibatch e mb mpe f =>
    unfold run Item.events at hs
    rw [List.foldlM_cons] at hs
    obtain ⟨s1, h1, hs⟩ := ok_bind hs
    rw [List.foldlM_cons] at hs
    obtain ⟨s2, h2, hs⟩ := ok_bind hs
    rw [List.foldlM_cons] at hs
    obtain ⟨s3, h3, hs⟩ := ok_bind hs
    rw [List.foldlM_cons] at hs
    obtain ⟨s4, h4, hs⟩ := ok_bind hs
    simp [pure, Except.pure] at hs; subst hs
    have hb := h.begin_opt hnd hfold h1 h2
    injection h3 with h3
    subst h3
    refine Between.mbEnd (st := { s2 with store := { s2.store with params := s2.store.params.mapVals f } })
      ⟨hb.pol, ⟨?_, hb.clean.2⟩, hb.mine, hb.others, hb.noThr⟩ h4
    rw [← hb.clean.1]
    exact keys_mapVals _ _

end

theorem run_append_ok {env : Env} {st st' : State} {a b : List Ev} (h : run env st (a ++ b) = .ok st') :
    ∃ s, run env st a = .ok s ∧ run env s b = .ok st' := by
  unfold run at h ⊢
  rw [List.foldlM_append] at h
  exact ok_bind h

private theorem between_history (env : Env) (st st1 : State) (p : Nat) (cfg : PruneCfg) (ending : Int)
    (history : List Item) (hf : FreshPlain st p cfg ending) (hfold : cfg.foldBn = false)
    (h1 : run env st (history.flatMap Item.events) = .ok st1) : Between p cfg st.sched st.store.names st1 := by
  have hb0 : Between p cfg st.sched st.store.names st := by
    refine ⟨rfl, ⟨rfl, fun n hn => ?_⟩, ⟨_, _, hf.mine⟩, hf.others, hf.noThreshold⟩
    obtain ⟨m, hm⟩ := Option.isSome_iff_exists.1 (hf.covered n hn)
    have := hf.maskers n m hm
    subst this
    simp [copyAt, hm]
  have hb : ∀ (its : List Item) (s s' : State), Between p cfg st.sched st.store.names s →
      run env s (its.flatMap Item.events) = .ok s' → Between p cfg st.sched st.store.names s' := by
    intro its
    induction its with
    | nil => intro s s' h hr; simp [run, pure, Except.pure] at hr; subst hr; exact h
    | cons it its ih =>
      intro s s' h hr
      rw [List.flatMap_cons] at hr
      obtain ⟨t, r1, r2⟩ := run_append_ok hr
      exact ih t s' (h.item hf.names hfold r1) r2
  exact hb _ _ _ hb0 h1

/-- What stays true over every training history of a scheduler with one pruning policy and no thresholding. -/
theorem history_between (env : Env) (st st1 : State) (p : Nat) (cfg : PruneCfg) (ending : Int)
    (history : List Item) (hf : FreshPlain st p cfg ending) (hfold : cfg.foldBn = false)
    (h1 : run env st (history.flatMap Item.events) = .ok st1) :
    st1.sched.policies = st.sched.policies ∧ st1.store.names = st.store.names ∧
    (∀ q, q ≠ p → ∀ c a b, st1.pols q ≠ .prune c a b) ∧ (∀ q keep last, st1.pols q ≠ .reg keep true last) ∧
    ∀ n ∈ st.store.names, n ∈ st1.store.maskers.map Prod.fst := by
  have h := between_history env st st1 p cfg ending history hf hfold h1
  refine ⟨h.pol, h.clean.1, h.others, h.noThr, ?_⟩
  intro n hn
  have := h.clean.2 n hn
  unfold copyAt at this
  rw [← get?_isSome_iff]
  cases hm : st1.store.maskers.get? n with
  | none => rw [hm] at this; cases this
  | some m => rfl

/-- **C04** (partial: one pruning policy, listed once for the epoch, without batch-norm folding; no regularizer with
thresholding) Over every training history – any number of epochs and minibatches, any other policies, any optimizer
updates – that brought the policy into its schedule: in the next minibatch the optimizer is given exactly the weights
which were in the model before the minibatch began, although the forward pass in between saw masked ones. -/
theorem C04_history_partial (env : Env) (st st1 st2 : State) (p : Nat) (cfg : PruneCfg) (ending : Int)
    (history : List Item) (e : Int) (mb mpe : Nat)
    (hf : FreshPlain st p cfg ending) (hd : cfg.dbl = true) (hfold : cfg.foldBn = false)
    (h1 : run env st (history.flatMap Item.events) = .ok st1)
    (hphase : (phaseAfter st.sched.active p ending (history.flatMap Item.events)).begun = true ∧
      (phaseAfter st.sched.active p ending (history.flatMap Item.events)).ended = false)
    (honce : (st.sched.active e).count p = 1)
    (h2 : run env st1 [.mbBegin e mb mpe, .beforeOpt e mb mpe] = .ok st2) :
    ∀ n, st2.store.params.get? n = st1.store.params.get? n := by
  have hb1 := between_history env st st1 p cfg ending history hf hfold h1
  have hmodes := C12_history_partial env st st1 p cfg ending (history.flatMap Item.events) hf.toFreshWith h1
  unfold run at h2
  rw [List.foldlM_cons] at h2
  obtain ⟨t, g1, h2⟩ := ok_bind h2
  rw [List.foldlM_cons] at h2
  obtain ⟨t2, g2, h2⟩ := ok_bind h2
  simp [pure, Except.pure] at h2; subst h2
  obtain ⟨a, b, hm⟩ := hb1.mine
  have hact : st1.sched.active e = st.sched.active e := by unfold Sched.active; rw [hb1.pol]
  have hpr : st1.pruningIn e = [p] := by
    unfold State.pruningIn
    have : (fun q => (st1.pols q).isPrune) = fun q => q == p := by
      funext q
      by_cases hq : q = p
      · subst hq; simp [hm, Policy.isPrune]
      · cases hpp : st1.pols q with
        | prune c x y => exact absurd hpp (hb1.others q hq c x y)
        | reg _ _ _ => simp [Policy.isPrune, hq]
        | other => simp [Policy.isPrune, hq]
    rw [this, hact, List.filter_beq, honce]
    rfl
  refine (C04_one_pruning_policy_partial env st1 t t2 e mb mpe p cfg a b hpr hm hfold
    (by have := hb1.clean.1; unfold Store.names at this; rw [this]; exact hf.names) ?_ g1 g2).1
  intro n hn m hmk
  have hn' : n ∈ st.store.names := by rw [← hb1.clean.1]; exact hn
  refine ⟨?_, clean_copy hb1.clean hn' hmk⟩
  rw [(hmodes n hn' m hmk).1]
  simp [Phase.modes, hphase.1, hphase.2, hd]

/-- A policy with double copies next to a learning-rate policy; the weights grow by 7 in every minibatch. -/
def exDbl : State :=
  { exHist with pols := fun q => if q = 0 then .prune { dbl := true } false false else .other }

example : FreshPlain exDbl 0 { dbl := true } 2 := by
  refine ⟨⟨by decide, rfl, ?_, ?_, ?_⟩, by decide, ?_⟩
  · intro q hq c a b; simp [exDbl, hq]
  · intro m hm
    have : exDbl.sched.md.get? 0 = some { starting := 0, ending := 2, freq := some 1 } := by decide
    rw [this] at hm; cases hm; rfl
  · intro n m hm
    have := Dict.mem_of_get? hm
    simp only [exDbl, exHist, List.mem_singleton, Prod.mk.injEq] at this
    exact this.2
  · intro q k l
    by_cases hq : q = 0 <;> simp [exDbl, hq]

private def exItems : List Item := [.epochBegin 0, .minibatch 0 0 2 fun _ w => w.map (· + 7)]

example : phaseAfter exDbl.sched.active 0 2 (exItems.flatMap Item.events) = ⟨true, false, false⟩ ∧
    (exDbl.sched.active 0).count 0 = 1 ∧
    (run exEnv exDbl (exItems.flatMap Item.events)).toOption.map (·.store.params) = some [(["fc", "weight"], [0, 12])] ∧
    (run exEnv exDbl (exItems.flatMap Item.events ++ [.mbBegin 0 1 2, .beforeOpt 0 1 2])).toOption.map (·.store.params)
      = some [(["fc", "weight"], [0, 12])] := by decide +kernel

/-- **C04 fails** with one pruning policy and a thresholding regularizer: the regularizer masks the weights at the end
of the minibatch through the same masker, which (in double-copy mode) stores a copy of the unmasked weights; its mask
is dropped at once, so that the next `on_minibatch_begin` does not replace the copy, and `before_parameter_optimization`
puts the weights of the previous minibatch back: `[3, 5]` although the model held `[0, 5]` when the minibatch began. -/
theorem C04_violated_threshold :
    ∃ (env : Env) (st st1 st2 : State),
      st.pruningIn 0 = [0] ∧ st.pols 0 = .prune { dbl := true } false false ∧ st.pols 1 = .reg false true false ∧
      run env st [.epochBegin 0, .mbBegin 0 0 2, .beforeOpt 0 0 2, .mbEnd 0 0 2] = .ok st1 ∧
      st1.store.params.get? ["fc", "weight"] = some [0, 5] ∧
      run env st1 [.mbBegin 0 1 2, .beforeOpt 0 1 2] = .ok st2 ∧
      st2.store.params.get? ["fc", "weight"] = some [3, 5] := by
  refine ⟨{ prune := fun _ _ _ _ _ _ => .ok none, thresh := fun _ _ _ _ => some [0, 1], folded := fun _ _ _ => none },
    { exHist with pols := fun q => if q = 0 then .prune { dbl := true } false false else .reg false true false }, _, _,
    by decide, rfl, rfl, rfl, by decide +kernel, rfl, by decide +kernel⟩

end Verif
