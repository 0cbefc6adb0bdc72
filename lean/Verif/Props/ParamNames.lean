import Verif.Model.ParamNames
import Verif.Lemmas.Fold
/-!
# C146: quantization parameters are set by name
-/
namespace Verif

/-! ## Specification -/

/-- A prepared quantizer: module names are distinct and the stored keys are the listed names. -/
structure PQ.WF (q : PQ) : Prop where
  nodup : (q.modules.map Prod.fst).Nodup
  keys : q.keys = (q.listed false).map Prod.fst

/-- The clipping values of every wrapper can be computed. -/
def PQ.Clips (q : PQ) : Prop := ∀ m p, (m, some p) ∈ q.modules → ∃ l, p.clips false = .ok l

/-- The stored weights of all wrappers. -/
def PQ.weights (q : PQ) : List (Name × Option (List ℚ)) := q.modules.map fun m => (m.1, m.2.map PW.w)

/-- Every wrapper (embeddings have no such flag) re-computes its derived values in the next forward pass. -/
def PQ.AllReadjust (q : PQ) : Prop := ∀ m p, (m, some p) ∈ q.modules → p.kind ≠ .emb → p.readjust = true

/-- A listing with new values for some names. -/
def overridden (f : Name × String → Option ℚ) (l : List ((Name × String) × ℚ)) : List ((Name × String) × ℚ) :=
  l.map fun e => (e.1, (f e.1).getD e.2)

/-- The weights of every wrapper with saved float weights are these, quantized with the wrapper's parameters. -/
def PQ.Consistent (q : PQ) : Prop := ∀ m p, (m, some p) ∈ q.modules → p.saveFp = true → p.w = p.requant

/-! ## Proofs -/

theorem set_eq_map {β : Type} (d : Dict Name β) (m : Name) (v v0 : β) (hm : Dict.get? d m = some v0) (hd : (d.map Prod.fst).Nodup) :
    Dict.set d m v = d.map fun e => if e.1 = m then (e.1, v) else e := by
  induction d with
  | nil => simp at hm
  | cons e d ih =>
    obtain ⟨k, w⟩ := e
    rw [List.map_cons, List.nodup_cons] at hd
    by_cases h : k = m
    · subst h
      simp only [Dict.set, if_true, List.map_cons]
      congr 1
      symm
      conv_rhs => rw [← List.map_id d]
      apply List.map_congr_left
      intro e he
      rw [if_neg]; · rfl
      intro h'
      exact hd.1 (List.mem_map.2 ⟨e, he, h'⟩)
    · rw [Dict.get?_cons, if_neg h] at hm
      simp only [Dict.set, h, if_false, List.map_cons]
      rw [ih hm hd.2]

theorem mem_of_get {β : Type} {d : Dict Name β} {m : Name} {v : β} (h : Dict.get? d m = some v) : (m, v) ∈ d := by
  induction d with
  | nil => simp at h
  | cons e d ih =>
    obtain ⟨k, w⟩ := e
    rw [Dict.get?_cons] at h
    split at h
    · next h' => subst h'; cases h; simp
    · exact List.mem_cons_of_mem _ (ih h)

theorem get_of_mem {β : Type} {d : Dict Name β} {m : Name} {v : β} (hd : (d.map Prod.fst).Nodup) (h : (m, v) ∈ d) :
    Dict.get? d m = some v := by
  induction d with
  | nil => simp at h
  | cons e d ih =>
    obtain ⟨k, w⟩ := e
    rw [List.map_cons, List.nodup_cons] at hd
    rw [Dict.get?_cons]
    rcases List.mem_cons.1 h with h | h
    · cases h; simp
    · rw [if_neg, ih hd.2 h]
      rintro rfl
      exact hd.1 (List.mem_map.2 ⟨_, h, rfl⟩)

theorem PW.rd_params (p : PW) (f : Bool) : p.rd.params f = p.params f := by unfold PW.rd; split <;> rfl
theorem PW.rd_clips (p : PW) (f : Bool) : p.rd.clips f = p.clips f := by unfold PW.rd; split <;> rfl
theorem PW.rd_w (p : PW) : p.rd.w = p.w := by unfold PW.rd; split <;> rfl
theorem PW.rd_requant (p : PW) : p.rd.requant = p.requant := by unfold PW.rd; split <;> rfl
theorem PW.rd_saveFp (p : PW) : p.rd.saveFp = p.saveFp := by unfold PW.rd; split <;> rfl
theorem PW.rd_kind (p : PW) : p.rd.kind = p.kind := by unfold PW.rd; split <;> rfl

/-- The modules after putting `p'` in place of the wrapper `m` and forcing re-adjustment. -/
theorem put_modules (q : PQ) (h : q.WF) (m : Name) (p p' : PW) (hm : Dict.get? q.modules m = some (some p)) :
    (q.put m p').forceReadjust.modules =
      q.modules.map fun e => (e.1, if e.1 = m then some p'.rd else e.2.map PW.rd) := by
  unfold PQ.forceReadjust PQ.put
  dsimp only
  rw [set_eq_map _ _ _ _ hm h.nodup, List.map_map]
  apply List.map_congr_left
  intro e _
  by_cases he : e.1 = m
  · simp [he]
  · simp [he]

theorem put_listed (q : PQ) (h : q.WF) (m : Name) (p p' : PW) (hm : Dict.get? q.modules m = some (some p))
    (f : Name × String → Option ℚ) (hf : ∀ k, k.1 ≠ m → f k = none)
    (hp : p'.params false = (p.params false).map fun e => (e.1, (f (m, e.1)).getD e.2)) :
    (q.put m p').forceReadjust.listed false = overridden f (q.listed false) := by
  unfold PQ.listed overridden
  rw [put_modules q h m p p' hm, List.map_flatMap, List.flatMap_map]
  apply List.flatMap_congr
  intro e he
  obtain ⟨k, o⟩ := e
  by_cases hk : k = m
  · subst hk
    have : o = some p := by
      have := get_of_mem h.nodup he
      rw [hm] at this
      exact (Option.some.inj this).symm
    subst this
    unfold listModule
    simp only [if_true, PW.rd_params, hp, List.map_map, Function.comp_def]
  · cases o with
    | none => simp [listModule, hk]
    | some p =>
      simp only [listModule, hk, if_false, Option.map_some, PW.rd_params, List.map_map, Function.comp_def]
      apply List.map_congr_left
      intro e _
      rw [hf (k, e.1) hk]
      rfl

theorem put_wf (q : PQ) (h : q.WF) (m : Name) (p p' : PW) (hm : Dict.get? q.modules m = some (some p))
    (f : Name × String → Option ℚ) (hl : (q.put m p').forceReadjust.listed false = overridden f (q.listed false)) :
    (q.put m p').forceReadjust.WF := by
  constructor
  · rw [put_modules q h m p p' hm, List.map_map]
    exact h.nodup
  · rw [hl]
    unfold overridden
    rw [List.map_map]
    exact h.keys

theorem put_weights (q : PQ) (h : q.WF) (m : Name) (p p' : PW) (hm : Dict.get? q.modules m = some (some p)) (hw : p'.w = p.w) :
    (q.put m p').forceReadjust.weights = q.weights := by
  unfold PQ.weights
  rw [put_modules q h m p p' hm, List.map_map]
  apply List.map_congr_left
  intro e he
  obtain ⟨k, o⟩ := e
  by_cases hk : k = m
  · subst hk
    have : o = some p := by
      have := get_of_mem h.nodup he
      rw [hm] at this
      exact (Option.some.inj this).symm
    subst this
    simp [PW.rd_w, hw]
  · cases o with
    | none => simp [hk]
    | some p => simp [hk, PW.rd_w]

theorem put_readjust (q : PQ) (h : q.WF) (m : Name) (p p' : PW) (hm : Dict.get? q.modules m = some (some p)) :
    (q.put m p').forceReadjust.AllReadjust := by
  intro k r hr hk
  rw [put_modules q h m p p' hm] at hr
  obtain ⟨e, -, he⟩ := List.mem_map.1 hr
  have H : ∃ s : PW, r = s.rd := by
    split at he
    · cases he; exact ⟨_, rfl⟩
    · obtain ⟨e1, e2⟩ := e
      cases e2 with
      | none => cases he
      | some s => cases he; exact ⟨_, rfl⟩
  obtain ⟨s, rfl⟩ := H
  rw [PW.rd_kind] at hk
  unfold PW.rd
  rw [if_neg hk]

theorem put_consistent (q : PQ) (h : q.WF) (m : Name) (p p' : PW) (hm : Dict.get? q.modules m = some (some p)) (hc : q.Consistent)
    (hp : p'.saveFp = true → p'.w = p'.requant) : (q.put m p').forceReadjust.Consistent := by
  intro k r hr hs
  rw [put_modules q h m p p' hm] at hr
  obtain ⟨e, hmem, he⟩ := List.mem_map.1 hr
  obtain ⟨e1, e2⟩ := e
  dsimp only at he
  split at he
  · cases he
    rw [PW.rd_saveFp] at hs
    rw [PW.rd_w, PW.rd_requant]
    exact hp hs
  · cases e2 with
    | none => cases he
    | some s =>
      cases he
      rw [PW.rd_saveFp] at hs
      rw [PW.rd_w, PW.rd_requant]
      exact hc k s hmem hs

/-- Names of listed parameters are the four buffer names. -/
theorem params_names (p : PW) (n : String) (x : ℚ) (f : Bool) (h : (n, x) ∈ p.params f) :
    n = "w_scale" ∨ n = "w_zero_point" ∨ n = "output_scale" ∨ n = "output_zero_point" := by
  have h1 : ∀ e ∈ p.outParams f, e.1 = "output_scale" ∨ e.1 = "output_zero_point" := by
    intro e he
    unfold PW.outParams at he
    split at he
    · split at he <;> simp at he
      · rcases he with rfl | rfl <;> simp
      · subst he; simp
    · simp at he
  have h2 : ∀ e ∈ p.wParams f, e.1 = "w_scale" ∨ e.1 = "w_zero_point" := by
    intro e he
    unfold PW.wParams at he
    split at he <;> simp at he
    · rcases he with rfl | rfl <;> simp
    · subst he; simp
  unfold PW.params at h
  split at h
  · rcases h1 _ h with h | h <;> simp_all
  · rcases List.mem_append.1 h with h | h
    · split at h
      · rcases h2 _ h with h | h <;> simp_all
      · simp at h
    · rcases h1 _ h with h | h <;> simp_all
  · rcases h2 _ h with h | h <;> simp_all

theorem clips_names (p : PW) (l : List (String × List ℚ)) (h : p.clips false = .ok l) :
    ∀ n ∈ l.map Prod.fst, n = "output_clipping" ∨ n = "weight_clipping" := by
  have ho : ∀ l, p.outClips false = .ok l → l.map Prod.fst = ["output_clipping"] := by
    intro l h
    unfold PW.outClips at h
    cases hc : p.outClip with
    | error e => rw [hc] at h; cases h
    | ok v => rw [hc] at h; cases h; rfl
  have hw : ∀ l, p.wClips false = .ok l → l.map Prod.fst = ["weight_clipping"] := by
    intro l h
    unfold PW.wClips at h
    cases hc : p.wClip with
    | error e => rw [hc] at h; cases h
    | ok v => rw [hc] at h; cases h; rfl
  intro n hn
  unfold PW.clips at h
  split at h
  · rw [ho l h] at hn; simp at hn; exact Or.inl hn
  · cases hc : p.wClips false with
    | error e => rw [hc] at h; cases h
    | ok v =>
      rw [hc] at h; cases h
      rw [List.map_append, List.mem_append] at hn
      rcases hn with hn | hn
      · unfold PW.outClipsWarn at hn
        cases hq : p.outClips false with
        | error e => rw [hq] at hn; simp at hn
        | ok v => rw [hq] at hn; rw [ho v hq] at hn; simp at hn; exact Or.inl hn
      · rw [hw v hc] at hn; simp at hn; exact Or.inr hn
  · rw [hw l h] at hn; simp at hn; exact Or.inr hn

theorem fill_params (p : PW) (n : String) (v x : ℚ) (h : (n, x) ∈ p.params false) :
    (p.fill n v).params false = (p.params false).map fun e => (e.1, (if e.1 = n then some v else none).getD e.2) := by
  rcases params_names p n x false h with rfl | rfl | rfl | rfl <;>
    cases hk : p.kind <;> cases hs : p.saveFp <;> by_cases ha : p.actBits.isSome = true ∧ p.preset = true <;>
    simp [PW.fill, PW.params, PW.outParams, PW.wParams, hk, hs, ha]

theorem fill_w (p : PW) (n : String) (v : ℚ) : (p.fill n v).w = p.w := by
  unfold PW.fill
  split
  · rfl
  · split
    · rfl
    · split <;> rfl

theorem mem_listed {q : PQ} (h : q.WF) {m : Name} {p : PW} (hm : Dict.get? q.modules m = some (some p)) {n : String} {x : ℚ}
    (hn : (n, x) ∈ p.params false) : (m, n) ∈ q.keys := by
  rw [h.keys]
  apply List.mem_map.2
  refine ⟨((m, n), x), ?_, rfl⟩
  apply List.mem_flatMap.2
  refine ⟨(m, some p), mem_of_get hm, ?_⟩
  exact List.mem_map.2 ⟨(n, x), hn, rfl⟩

theorem getE_some {q : PQ} {m : Name} {o : Option PW} (hm : Dict.get? q.modules m = some o) : Dict.getE q.modules m = .ok o := by
  unfold Dict.getE; rw [hm]

theorem setParam_fill (q : PQ) (h : q.WF) (m : Name) (p : PW) (hm : Dict.get? q.modules m = some (some p)) (n : String) (x v : ℚ)
    (hn : (n, x) ∈ p.params false) (l : List (String × List ℚ)) (hc : p.clips false = .ok l) :
    q.setParam m n (.float v) = .ok (q.put m (p.fill n v)).forceReadjust := by
  have hnot : (l.map Prod.fst).contains n = false := by
    rw [Bool.eq_false_iff]
    intro hcon
    rcases clips_names p l hc n (by simpa using hcon) with h1 | h1 <;>
      rcases params_names p n x false hn with h2 | h2 | h2 | h2 <;> rw [h1] at h2 <;> revert h2 <;> decide
  have hb : q.isClip m n = .ok false := by
    unfold PQ.isClip
    rw [getE_some hm]
    show p.hasClip n = _
    unfold PW.hasClip
    rw [hc]
    show Except.ok _ = _
    rw [hnot]
  unfold PQ.setParam
  rw [hb]
  show ((q.fillParam m n (.float v)).bind fun q => Except.ok q.forceReadjust) = _
  unfold PQ.fillParam
  rw [if_pos (mem_listed h hm hn), hm]
  rfl

/-- **C146** Setting a listed scale or zero-point by its name: the listing of the quantizer then has the new value under that
name and the old values elsewhere, no stored weight changes, and all wrappers re-compute their derived values. -/
theorem C146_set_parameter (q : PQ) (h : q.WF) (m : Name) (p : PW) (hm : Dict.get? q.modules m = some (some p)) (n : String) (x v : ℚ)
    (hn : (n, x) ∈ p.params false) (hc : ∃ l, p.clips false = .ok l) :
    ∃ q', q.setParam m n (.float v) = .ok q' ∧ q'.WF ∧
      q'.listed false = overridden (fun k => if k = (m, n) then some v else none) (q.listed false) ∧
      q'.weights = q.weights ∧ q'.AllReadjust := by
  obtain ⟨l, hc⟩ := hc
  have hl : (q.put m (p.fill n v)).forceReadjust.listed false =
      overridden (fun k => if k = (m, n) then some v else none) (q.listed false) := by
    apply put_listed q h m p _ hm
    · intro k hk
      rw [if_neg]
      rintro rfl
      exact hk rfl
    · rw [fill_params p n v x hn]
      apply List.map_congr_left
      intro e _
      simp
  exact ⟨_, setParam_fill q h m p hm n x v hn l hc, put_wf q h m p _ hm _ hl, hl,
    put_weights q h m p _ hm (fill_w p n v), put_readjust q h m p _ hm⟩

theorem outClips_ok {p : PW} {v : ℚ × ℚ} (h : p.outClip = .ok v) : p.outClips false = .ok [("output_clipping", [v.1, v.2])] := by
  unfold PW.outClips; rw [h]; rfl

theorem wClips_ok {p : PW} {v : ℚ × ℚ} (h : p.wClip = .ok v) : p.wClips false = .ok [("weight_clipping", [v.1, v.2])] := by
  unfold PW.wClips; rw [h]; rfl

/-- Setting a clipping value through the quantizer, given the changed wrapper. -/
theorem setParam_clip (q : PQ) (m : Name) (p p' : PW) (hm : Dict.get? q.modules m = some (some p)) (n : String) (arg : ClipArg)
    (hb : p.hasClip n = .ok true) (hs : p.setClipNamed n arg = .ok p') :
    q.setParam m n arg = .ok (q.put m p').forceReadjust := by
  unfold PQ.setParam PQ.isClip PQ.setClipping
  rw [getE_some hm]
  show ((p.hasClip n).bind fun b => _) = _
  rw [hb]
  show ((q.setClipOn m n arg p).bind fun q => Except.ok q.forceReadjust) = _
  unfold PQ.setClipOn
  rw [hb]
  show (((p.setClipNamed n arg).bind fun p => Except.ok (q.put m p)).bind fun q => Except.ok q.forceReadjust) = _
  rw [hs]
  rfl

theorem hasClip_out (p : PW) (hk : p.kind ≠ .emb) (hw : p.kind = .layer → p.wBits ≠ 0) (v : ℚ × ℚ) (h : p.outClip = .ok v) :
    p.hasClip "output_clipping" = .ok true := by
  unfold PW.hasClip PW.clips
  cases hk' : p.kind with
  | act => simp only; rw [outClips_ok h]; rfl
  | layer =>
    simp only
    have : p.wClip = .ok (clippingValues p.wP.1 p.wP.2 p.wBits p.wMode) := by unfold PW.wClip; rw [if_neg (hw hk')]
    rw [wClips_ok this]
    unfold PW.outClipsWarn
    rw [outClips_ok h]
    rfl
  | emb => exact absurd hk' hk

/-- **C146** Setting an output clipping range by name: the scale and zero-point of that output become those of the given range,
every other parameter and all weights stay, and all wrappers re-compute their derived values. -/
theorem C146_set_output_clipping (q : PQ) (h : q.WF) (m : Name) (p : PW) (hm : Dict.get? q.modules m = some (some p))
    (hk : p.kind ≠ .emb) (hw : p.kind = .layer → p.wBits ≠ 0) (b : ℕ) (hb : p.actBits = some b) (hb0 : b ≠ 0) (hp : p.preset = true)
    (arg : ClipArg) (lo hi : ℚ) (harg : checkClip arg p.actMode p.half = .ok (lo, hi)) (s : ℚ × ℚ)
    (hs : outputClipParams b p.actMode p.approx lo hi = .ok s) :
    ∃ q', q.setParam m "output_clipping" arg = .ok q' ∧ q'.WF ∧
      q'.listed false = overridden (fun k => if k = (m, "output_scale") then some s.1 else
        if k = (m, "output_zero_point") then some s.2 else none) (q.listed false) ∧
      q'.weights = q.weights ∧ q'.AllReadjust := by
  have ho : p.outClip = .ok (clippingValues p.outP.1 p.outP.2 b p.actMode) := by
    unfold PW.outClip; rw [hb, hp]; simp [hb0]
  have hset : p.setClipNamed "output_clipping" arg = .ok { p with outP := s, readjust := true } := by
    unfold PW.setClipNamed PW.setOutClip
    rw [if_pos rfl, ho, harg, hb]
    show ((outputClipParams b p.actMode p.approx lo hi).bind _) = _
    rw [hs]
    rfl
  have hl : (q.put m { p with outP := s, readjust := true }).forceReadjust.listed false =
      overridden (fun k => if k = (m, "output_scale") then some s.1 else
        if k = (m, "output_zero_point") then some s.2 else none) (q.listed false) := by
    apply put_listed q h m p _ hm
    · intro k hk
      rw [if_neg, if_neg]
      · rintro rfl; exact hk rfl
      · rintro rfl; exact hk rfl
    · cases hk' : p.kind <;> cases hs' : p.saveFp <;> simp [PW.params, PW.outParams, PW.wParams, hk', hb, hp, hs']
  exact ⟨_, setParam_clip q m p _ hm _ arg (hasClip_out p hk hw _ ho) hset, put_wf q h m p _ hm _ hl, hl,
    put_weights q h m p _ hm rfl, put_readjust q h m p _ hm⟩

theorem hasClip_w (p : PW) (hk : p.kind ≠ .act) (hw : p.wBits ≠ 0) : p.hasClip "weight_clipping" = .ok true := by
  have h1 : p.wClip = .ok (clippingValues p.wP.1 p.wP.2 p.wBits p.wMode) := by unfold PW.wClip; rw [if_neg hw]
  unfold PW.hasClip PW.clips
  cases hk' : p.kind with
  | act => exact absurd hk' hk
  | layer =>
    simp only
    rw [wClips_ok h1]
    show Except.ok (List.contains (List.map Prod.fst (p.outClipsWarn false ++ _)) _) = _
    congr 1
    simp
  | emb => simp only; rw [wClips_ok h1]; rfl

/-- **C146** Setting a weight clipping range by name, with saved float weights: the weight parameters become those of the given
range, every other parameter stays, and the stored weights become the saved ones quantized with them. -/
theorem C146_set_weight_clipping (q : PQ) (h : q.WF) (m : Name) (p : PW) (hm : Dict.get? q.modules m = some (some p))
    (hk : p.kind ≠ .act) (hw : p.wBits ≠ 0) (hf : p.saveFp = true)
    (arg : ClipArg) (lo hi : ℚ) (harg : checkClip arg p.wMode false = .ok (lo, hi)) (s : ℚ × ℚ) (hs : p.wClipParams lo hi = .ok s) :
    ∃ q' p', q.setParam m "weight_clipping" arg = .ok q' ∧ q'.WF ∧
      q'.listed false = overridden (fun k => if k = (m, "w_scale") then some s.1 else
        if k = (m, "w_zero_point") then some s.2 else none) (q.listed false) ∧
      Dict.get? q'.modules m = some (some p') ∧ p'.w = p'.requant ∧ p'.wP = s ∧ p'.floatW = p.floatW ∧
      (q.Consistent → q'.Consistent) ∧ q'.AllReadjust := by
  have h1 : p.wClip = .ok (clippingValues p.wP.1 p.wP.2 p.wBits p.wMode) := by unfold PW.wClip; rw [if_neg hw]
  let r : PW := { p with wP := s }
  let p' : PW := { r with w := r.requant, readjust := if p.kind = .emb then p.readjust else true }
  have hset : p.setClipNamed "weight_clipping" arg = .ok p' := by
    unfold PW.setClipNamed PW.setWClip
    rw [if_neg (by decide), h1, harg]
    show ((p.wClipParams lo hi).bind _) = _
    rw [hs]
    show p.setWP s = _
    unfold PW.setWP
    rw [if_pos hf]
  have hl : (q.put m p').forceReadjust.listed false =
      overridden (fun k => if k = (m, "w_scale") then some s.1 else
        if k = (m, "w_zero_point") then some s.2 else none) (q.listed false) := by
    apply put_listed q h m p _ hm
    · intro k hk
      rw [if_neg, if_neg]
      · rintro rfl; exact hk rfl
      · rintro rfl; exact hk rfl
    · cases hk' : p.kind
      · exact absurd hk' hk
      all_goals
        by_cases ha : p.actBits.isSome = true ∧ p.preset = true <;>
        simp [p', r, PW.params, PW.outParams, PW.wParams, hk', hf, ha]
  have hreq : p'.requant = r.requant := rfl
  refine ⟨_, p'.rd, setParam_clip q m p p' hm _ arg (hasClip_w p hk hw) hset, put_wf q h m p _ hm _ hl, hl, ?_, ?_, ?_, ?_, ?_,
    put_readjust q h m p _ hm⟩
  · apply get_of_mem (put_wf q h m p _ hm _ hl).nodup
    rw [put_modules q h m p _ hm]
    refine List.mem_map.2 ⟨(m, some p), mem_of_get hm, ?_⟩
    simp
  · rw [PW.rd_w, PW.rd_requant]; rfl
  · unfold PW.rd; split <;> rfl
  · unfold PW.rd; split <;> rfl
  · intro hc
    exact put_consistent q h m p p' hm hc fun _ => rfl

/-- **C146** What the two values in `C146_set_weight_clipping` are.  The stored weights are the saved ones, each scaled, shifted,
rounded and clamped to the integers of the mode; a parameter layer whose activations are not quantized stores them back in
floating point, an embedding never does.  In a symmetric mode the scale follows from the upper bound (in an embedding) or its
magnitude (in a parameter layer); in the other modes from both bounds. -/
theorem C146_weight_formulas (p : PW) (lo hi : ℚ) :
    let q := fun x => clampQ (roundHalfEven (p.wP.1 * x - p.wP.2)) (modeRange p.wMode p.wBits).1 (modeRange p.wMode p.wBits).2
    (p.kind = .emb → p.requant = p.floatW.map q) ∧
    (p.kind = .layer → p.actBits.isSome → p.requant = p.floatW.map q) ∧
    (p.kind = .layer → p.actBits = none → p.requant = p.floatW.map fun x => (q x + p.wP.2) / p.wP.1) ∧
    (p.kind = .emb → p.wMode.isSym → p.wClipParams lo hi = symParams p.wBits hi false) ∧
    (p.kind = .layer → p.wMode.isSym → lo ≤ hi → p.wClipParams lo hi = symParams p.wBits |hi| false) ∧
    (p.wMode.isSym = false → p.wClipParams lo hi = asymParams p.wBits lo hi true (p.wMode = .asymmetricSigned)) := by
  refine ⟨?_, ?_, ?_, ?_, ?_, ?_⟩
  · intro h; unfold PW.requant; simp only [h]; rfl
  · intro h ha
    unfold PW.requant
    have : p.actBits ≠ none := by intro e; rw [e] at ha; simp at ha
    simp only [h, this, and_false, if_false]; rfl
  · intro h ha; unfold PW.requant; simp only [h, ha, and_self, if_true]; rfl
  · intro h hm; unfold PW.wClipParams embClipParams; rw [if_pos h, if_pos hm]
  · intro h hm hle
    unfold PW.wClipParams layerClipParams
    rw [if_neg (by rw [h]; decide), if_pos hm, max_eq_right hle]
  · intro hm
    unfold PW.wClipParams embClipParams layerClipParams
    rw [hm]
    split <;> rfl

/-- **C146** (partial) Setting an output scale or zero-point keeps the weights consistent with the weight parameters.  Missing: a
weight scale or zero-point (`C146_violated_weight_scale`). -/
theorem C146_consistent_partial (q : PQ) (h : q.WF) (hc : q.Consistent) (m : Name) (p : PW) (hm : Dict.get? q.modules m = some (some p))
    (n : String) (x v : ℚ) (hn : (n, x) ∈ p.params false) (hcl : ∃ l, p.clips false = .ok l)
    (hout : n = "output_scale" ∨ n = "output_zero_point") :
    ∃ q', q.setParam m n (.float v) = .ok q' ∧ q'.Consistent := by
  obtain ⟨l, hcl⟩ := hcl
  refine ⟨_, setParam_fill q h m p hm n x v hn l hcl, put_consistent q h m p _ hm hc ?_⟩
  have := hc m p (mem_of_get hm)
  rcases hout with rfl | rfl
  · exact this
  · exact this

/-- **C146** Names that denote no parameter are refused, as are clipping values that are not: an unknown module (`KeyError`); a module
that is not a wrapper (`KeyError`, from `set_clipping` `ValueError`); a name the wrapper does not list (likewise). -/
theorem C146_refused (q : PQ) (h : q.WF) (m : Name) (n : String) (arg : ClipArg) :
    (Dict.get? q.modules m = none → q.setParam m n arg = .error .key ∧ q.setClipping m n arg = .error .key) ∧
    (Dict.get? q.modules m = some none → q.setParam m n arg = .error .key ∧ q.setClipping m n arg = .error .value) ∧
    (∀ p l, Dict.get? q.modules m = some (some p) → p.clips false = .ok l → n ∉ l.map Prod.fst →
      q.setClipping m n arg = .error .value ∧ (n ∉ (p.params false).map Prod.fst → q.setParam m n arg = .error .key)) := by
  have hkeys : ∀ n', (m, n') ∈ q.keys → ∃ p, Dict.get? q.modules m = some (some p) ∧ n' ∈ (p.params false).map Prod.fst := by
    intro n' hn'
    rw [h.keys] at hn'
    obtain ⟨e, he, hee⟩ := List.mem_map.1 hn'
    obtain ⟨k, hk, hke⟩ := List.mem_flatMap.1 he
    obtain ⟨k1, k2⟩ := k
    cases k2 with
    | none => cases hke
    | some p =>
      obtain ⟨f, hf, rfl⟩ := List.mem_map.1 hke
      cases hee
      exact ⟨p, get_of_mem h.nodup hk, List.mem_map.2 ⟨f, hf, rfl⟩⟩
  refine ⟨?_, ?_, ?_⟩
  · intro hm
    have : Dict.getE q.modules m = .error .key := by unfold Dict.getE; rw [hm]
    constructor
    · unfold PQ.setParam PQ.isClip; rw [this]; rfl
    · unfold PQ.setClipping; rw [this]; rfl
  · intro hm
    constructor
    · unfold PQ.setParam PQ.isClip
      rw [getE_some hm]
      show ((q.fillParam m n arg).bind _) = _
      unfold PQ.fillParam
      rw [if_neg]
      · rfl
      · intro hk
        obtain ⟨p, hp, -⟩ := hkeys n hk
        rw [hm] at hp; cases hp
    · unfold PQ.setClipping; rw [getE_some hm]; rfl
  · intro p l hm hcl hn
    have hb : p.hasClip n = .ok false := by
      unfold PW.hasClip; rw [hcl]
      show Except.ok _ = _
      congr 1
      simpa using hn
    constructor
    · unfold PQ.setClipping
      rw [getE_some hm]
      show q.setClipOn m n arg p = _
      unfold PQ.setClipOn
      rw [hb]
      rfl
    · intro hp
      unfold PQ.setParam PQ.isClip
      rw [getE_some hm]
      show ((p.hasClip n).bind _) = _
      rw [hb]
      show ((q.fillParam m n arg).bind _) = _
      unfold PQ.fillParam
      rw [if_neg]
      · rfl
      · intro hk
        obtain ⟨p2, hp2, hh⟩ := hkeys n hk
        rw [hm] at hp2; cases hp2
        exact hp hh

/-- Reading a configuration: the last value given to a name. -/
def configOf (cfg : List ((Name × String) × ℚ)) (k : Name × String) : Option ℚ :=
  cfg.foldl (fun o e => if e.1 = k then some e.2 else o) none

theorem configOf_cons (e : (Name × String) × ℚ) (cfg : List ((Name × String) × ℚ)) (k : Name × String) (x : ℚ) :
    (configOf (e :: cfg) k).getD x = (configOf cfg k).getD (if e.1 = k then e.2 else x) := by
  have H : ∀ (l : List ((Name × String) × ℚ)) (o : Option ℚ),
      l.foldl (fun o e => if e.1 = k then some e.2 else o) o = (configOf l k).or o := by
    intro l
    induction l with
    | nil => intro o; simp [configOf]
    | cons a l ih =>
      intro o
      have h2 : configOf (a :: l) k = (configOf l k).or (if a.1 = k then some a.2 else none) := by
        show l.foldl _ _ = _
        rw [ih]
      rw [h2, List.foldl_cons, ih]
      split <;> cases configOf l k <;> rfl
  have h2 : configOf (e :: cfg) k = (configOf cfg k).or (if e.1 = k then some e.2 else none) := by
    show cfg.foldl _ _ = _
    rw [H]
  rw [h2]
  split <;> cases configOf cfg k <;> rfl

theorem put_clips (q : PQ) (h : q.WF) (m : Name) (p p' : PW) (hm : Dict.get? q.modules m = some (some p)) (hc : q.Clips)
    (hp : ∃ l, p'.clips false = .ok l) : (q.put m p').forceReadjust.Clips := by
  intro k r hr
  rw [put_modules q h m p p' hm] at hr
  obtain ⟨e, hmem, he⟩ := List.mem_map.1 hr
  obtain ⟨e1, e2⟩ := e
  dsimp only at he
  split at he
  · cases he
    rw [PW.rd_clips]
    exact hp
  · cases e2 with
    | none => cases he
    | some s =>
      cases he
      rw [PW.rd_clips]
      exact hc k s hmem

theorem clips_iff (p : PW) : (∃ l, p.clips false = .ok l) ↔
    ((p.kind = .act → p.actBits.getD 0 ≠ 0 ∧ p.preset = true) ∧ (p.kind ≠ .act → p.wBits ≠ 0)) := by
  unfold PW.clips
  cases hk : p.kind with
  | act =>
    simp only [PW.outClips, PW.outClip]
    by_cases h1 : p.actBits.getD 0 = 0
    · simp only [h1, if_true]
      constructor
      · rintro ⟨l, hl⟩; cases hl
      · intro h; exact absurd rfl (h.1 trivial).1
    · cases h2 : p.preset
      · simp only [h1, if_true, if_false]
        constructor
        · rintro ⟨l, hl⟩; cases hl
        · intro h; have := (h.1 trivial).2; simp at this
      · simp only [h1, if_false]
        constructor
        · intro _; exact ⟨fun _ => ⟨h1, trivial⟩, by simp⟩
        · intro _; exact ⟨_, rfl⟩
  | layer =>
    simp only [PW.wClips, PW.wClip]
    by_cases h1 : p.wBits = 0
    · simp only [h1, if_true]
      constructor
      · rintro ⟨l, hl⟩; cases hl
      · intro h; exact absurd rfl (h.2 (by simp))
    · simp only [h1, if_false]
      exact ⟨fun _ => ⟨by simp, fun _ => h1⟩, fun _ => ⟨_, rfl⟩⟩
  | emb =>
    simp only [PW.wClips, PW.wClip]
    by_cases h1 : p.wBits = 0
    · simp only [h1, if_true]
      constructor
      · rintro ⟨l, hl⟩; cases hl
      · intro h; exact absurd rfl (h.2 (by simp))
    · simp only [h1, if_false]
      exact ⟨fun _ => ⟨by simp, fun _ => h1⟩, fun _ => ⟨_, rfl⟩⟩

theorem fill_clips (p : PW) (n : String) (v : ℚ) (h : ∃ l, p.clips false = .ok l) : ∃ l, (p.fill n v).clips false = .ok l := by
  rw [clips_iff] at h ⊢
  unfold PW.fill
  split
  · exact h
  · split
    · exact h
    · split <;> exact h

/-- **C146** Updating many parameters at once: after an update with listed names, every listed parameter has the (last) value the
configuration gives it, or its old one. -/
theorem C146_update (cfg : List ((Name × String) × ℚ)) :
    ∀ (q : PQ), q.WF → q.Clips → (∀ e ∈ cfg, e.1 ∈ (q.listed false).map Prod.fst) →
    ∃ q', q.update (cfg.map fun e => (e.1, .float e.2)) = (q', .ok ()) ∧ q'.WF ∧
      q'.listed false = overridden (configOf cfg) (q.listed false) ∧ q'.weights = q.weights ∧ (cfg ≠ [] → q'.AllReadjust) := by
  induction cfg with
  | nil =>
    intro q h hc _
    refine ⟨q, rfl, h, ?_, rfl, fun h => absurd rfl h⟩
    unfold overridden configOf
    simp
  | cons e cfg ih =>
    intro q h hc hl
    have he := hl e (by simp)
    obtain ⟨⟨m, n⟩, v⟩ := e
    obtain ⟨e', he', hee⟩ := List.mem_map.1 he
    obtain ⟨⟨k1, k2⟩, hk, hke⟩ := List.mem_flatMap.1 he'
    cases k2 with
    | none => cases hke
    | some p =>
      obtain ⟨f, hf, rfl⟩ := List.mem_map.1 hke
      cases hee
      have hm := get_of_mem h.nodup hk
      obtain ⟨f1, f2⟩ := f
      obtain ⟨l, hcl⟩ := hc _ p hk
      obtain ⟨q1, h1, h2, h3, h4, h5⟩ := C146_set_parameter q h k1 p hm f1 f2 v hf ⟨l, hcl⟩
      have hq1 : q1 = (q.put k1 (p.fill f1 v)).forceReadjust := by
        have := setParam_fill q h k1 p hm f1 f2 v hf l hcl
        rw [h1] at this
        exact Except.ok.inj this
      have hc1 : q1.Clips := by
        rw [hq1]
        exact put_clips q h k1 p _ hm hc (fill_clips p f1 v ⟨l, hcl⟩)
      have hl1 : ∀ e ∈ cfg, e.1 ∈ (q1.listed false).map Prod.fst := by
        intro e he
        rw [h3]
        unfold overridden
        rw [List.map_map]
        exact hl e (by simp [he])
      obtain ⟨q', g1, g2, g3, g4, g5⟩ := ih q1 h2 hc1 hl1
      refine ⟨q', ?_, g2, ?_, g4.trans h4, ?_⟩
      · show (match q.setParam k1 f1 (.float v) with
          | .ok q => q.update _
          | .error e => (q, .error e)) = _
        rw [h1]
        exact g1
      · rw [g3, h3]
        unfold overridden
        rw [List.map_map]
        apply List.map_congr_left
        intro e _
        simp only [Function.comp]
        rw [configOf_cons]
        dsimp only
        congr 2
        by_cases hh : e.1 = (k1, f1)
        · simp [hh]
        · rw [if_neg hh, if_neg (Ne.symm hh)]; rfl
      · intro _
        cases cfg with
        | nil => cases g1; exact h5
        | cons a b => exact g5 (by simp)

/-- **C146** An update that fails leaves the parameters before the offending one set. -/
theorem C146_update_fails (q : PQ) (l r : List ((Name × String) × ClipArg)) (n : Name × String) (a : ClipArg) (q' : PQ) (e : Err)
    (hl : q.update l = (q', .ok ())) (hr : q'.setParam n.1 n.2 a = .error e) : q.update (l ++ (n, a) :: r) = (q', .error e) := by
  induction l generalizing q with
  | nil =>
    cases hl
    show (match q'.setParam n.1 n.2 a with
      | .ok q => q.update r
      | .error e => (q', .error e)) = _
    rw [hr]
  | cons b l ih =>
    obtain ⟨k, v⟩ := b
    have hu : ∀ t, q.update ((k, v) :: t) = (match q.setParam k.1 k.2 v with
      | .ok q => q.update t
      | .error e => (q, .error e)) := fun _ => rfl
    rw [hu] at hl
    show q.update ((k, v) :: (l ++ (n, a) :: r)) = _
    rw [hu]
    cases hs : q.setParam k.1 k.2 v with
    | error e => rw [hs] at hl; cases hl
    | ok q1 =>
      rw [hs] at hl
      exact ih q1 hl

/-- **C146** The filtered listing leaves out exactly the zero-points of symmetric modes and of half-range outputs. -/
theorem C146_filter (q : PQ) (m : Name) (n : String) (x : ℚ) :
    ((m, n), x) ∈ q.listed true ↔ ((m, n), x) ∈ q.listed false ∧ ∃ p, (m, some p) ∈ q.modules ∧ (n, x) ∈ p.params false ∧
      ((n = "w_zero_point" → p.wMode.isSym = false) ∧ (n = "output_zero_point" → p.actMode.isSym = false ∧ p.half = false)) := by
  have key : ∀ p : PW, (n, x) ∈ p.params true ↔ (n, x) ∈ p.params false ∧
      ((n = "w_zero_point" → p.wMode.isSym = false) ∧ (n = "output_zero_point" → p.actMode.isSym = false ∧ p.half = false)) := by
    intro p
    have ho : (n, x) ∈ p.outParams true ↔ (n, x) ∈ p.outParams false ∧
        ((n = "w_zero_point" → p.wMode.isSym = false) ∧ (n = "output_zero_point" → p.actMode.isSym = false ∧ p.half = false)) := by
      unfold PW.outParams
      by_cases ha : p.actBits.isSome = true ∧ p.preset = true
      · by_cases h1 : n = "output_scale"
        · subst h1; simp [ha]
        · by_cases h2 : n = "output_zero_point"
          · subst h2
            by_cases h3 : p.actMode.isSym = false ∧ p.half = false
            · simp [ha, h3]
            · simp [ha, h3]
          · by_cases h3 : p.actMode.isSym = false ∧ p.half = false <;> simp [ha, h1, h2, h3]
      · simp [ha]
    have hw : (n, x) ∈ p.wParams true ↔ (n, x) ∈ p.wParams false ∧
        ((n = "w_zero_point" → p.wMode.isSym = false) ∧ (n = "output_zero_point" → p.actMode.isSym = false ∧ p.half = false)) := by
      unfold PW.wParams
      by_cases h1 : n = "w_scale"
      · subst h1; simp
      · by_cases h2 : n = "w_zero_point"
        · subst h2
          cases h3 : p.wMode.isSym <;> simp
        · cases h3 : p.wMode.isSym <;> simp [h1, h2]
    unfold PW.params
    cases hk : p.kind with
    | act => exact ho
    | emb => exact hw
    | layer =>
      simp only [List.mem_append]
      cases hs : p.saveFp
      · simpa using ho
      · simp only [if_true]
        rw [ho, hw]
        exact or_and_right.symm
  have gen : ∀ f, ((m, n), x) ∈ q.listed f ↔ ∃ p, (m, some p) ∈ q.modules ∧ (n, x) ∈ p.params f := by
    intro f
    constructor
    · intro h
      obtain ⟨⟨k1, k2⟩, hk, hke⟩ := List.mem_flatMap.1 h
      cases k2 with
      | none => cases hke
      | some p =>
        obtain ⟨g, hg, hgg⟩ := List.mem_map.1 hke
        cases hgg
        exact ⟨p, hk, hg⟩
    · rintro ⟨p, hp, hn⟩
      exact List.mem_flatMap.2 ⟨(m, some p), hp, List.mem_map.2 ⟨(n, x), hn, rfl⟩⟩
  rw [gen true, gen false]
  constructor
  · rintro ⟨p, hp, hn⟩
    have := (key p).1 hn
    exact ⟨⟨p, hp, this.1⟩, p, hp, this.1, this.2⟩
  · rintro ⟨-, p, hp, hn, hz⟩
    exact ⟨p, hp, (key p).2 ⟨hn, hz⟩⟩

/-- **C146** The clipping values of the whole model are listed if and only if every wrapper that has no weights has quantized
activations with statistics, and every other one quantized weights. -/
theorem C146_clipping_listed (q : PQ) :
    (∃ l, q.clipping false = .ok l) ↔ ∀ m p, (m, some p) ∈ q.modules →
      (p.kind = .act → p.actBits.getD 0 ≠ 0 ∧ p.preset = true) ∧ (p.kind ≠ .act → p.wBits ≠ 0) := by
  unfold PQ.clipping
  generalize q.modules = d
  induction d with
  | nil => exact ⟨fun _ m p h => by simp at h, fun _ => ⟨_, rfl⟩⟩
  | cons e d ih =>
    obtain ⟨k, o⟩ := e
    rw [List.mapM_cons]
    have hh : (∃ l, clipModule false (k, o) = .ok l) ↔ ∀ p, o = some p →
        (p.kind = .act → p.actBits.getD 0 ≠ 0 ∧ p.preset = true) ∧ (p.kind ≠ .act → p.wBits ≠ 0) := by
      cases o with
      | none => exact ⟨fun _ p h => (by cases h), fun _ => ⟨_, rfl⟩⟩
      | some p =>
        simp only [Option.some.injEq, forall_eq']
        rw [← clips_iff]
        unfold clipModule
        constructor
        · rintro ⟨l, hl⟩
          cases hc : p.clips false with
          | error e => simp only at hl; rw [hc] at hl; cases hl
          | ok l => exact ⟨l, rfl⟩
        · rintro ⟨l, hl⟩
          simp only
          rw [hl]
          exact ⟨_, rfl⟩
    constructor
    · rintro ⟨l, hl⟩ m p hp
      cases hc : clipModule false (k, o) with
      | error e => rw [hc] at hl; cases hl
      | ok v =>
        rw [hc] at hl
        cases hd : d.mapM (clipModule false) with
        | error e => rw [hd] at hl; cases hl
        | ok w =>
          rcases List.mem_cons.1 hp with h | h
          · cases h
            exact hh.1 ⟨v, hc⟩ p rfl
          · exact ih.1 ⟨_, by rw [hd]; rfl⟩ m p h
    · intro h
      obtain ⟨v, hv⟩ := hh.2 fun p hp => h k p (by simp [hp])
      obtain ⟨w, hw⟩ := ih.2 fun m p hp => h m p (by simp [hp])
      cases hd : d.mapM (clipModule false) with
      | error e => rw [hd] at hw; cases hw
      | ok w =>
        rw [hv]
        exact ⟨_, rfl⟩

/-! ## Instances and violations -/

/-- A parameter layer with 8-bit weights and activations, and an activation wrapper. -/
def pnLayer : PW := ⟨.layer, some 8, true, .asymmetricUnsigned, false, none, 8, .symmetric, true, [1, -1], (2, 3), (100, 0), [100, -100], false⟩
def pnAct : PW := ⟨.act, some 8, true, .symmetric, false, none, 8, .symmetric, false, [], (5, 0), (1, 0), [], false⟩
def pnQ : PQ := prepared [([""], none), (["conv"], some pnLayer), (["add"], some pnAct)]

example : pnQ.WF := ⟨by decide, rfl⟩
example : (pnQ.listed false).map Prod.fst = [(["conv"], "w_scale"), (["conv"], "w_zero_point"), (["conv"], "output_scale"),
    (["conv"], "output_zero_point"), (["add"], "output_scale"), (["add"], "output_zero_point")] ∧ (pnQ.listed true).length = 4 := by
  decide +kernel
example : pnQ.Consistent := by
  intro m p h hs
  have hm : (m, some p) ∈ [([""], none), (["conv"], some pnLayer), (["add"], some pnAct)] := h
  simp at hm
  rcases hm with ⟨rfl, rfl⟩ | ⟨rfl, rfl⟩
  · decide +kernel
  · decide +kernel
example : pnQ.Clips := by
  intro m p h
  have hm : (m, some p) ∈ [([""], none), (["conv"], some pnLayer), (["add"], some pnAct)] := h
  simp at hm
  rcases hm with ⟨rfl, rfl⟩ | ⟨rfl, rfl⟩
  · exact ⟨_, rfl⟩
  · exact ⟨_, rfl⟩
example : checkClip (.seq [-1, 3]) pnLayer.actMode pnLayer.half = .ok (-1, 3) := by decide +kernel
example : (pnLayer.wClipParams (-1) 3).toOption.isSome = true := by decide +kernel
example : (outputClipParams 8 pnLayer.actMode none (-1) 3).toOption.isSome = true := by decide +kernel

/-- **C146** (listed clipping values) The clipping values of a wrapper are listed as the pair of bounds; with the filter only the upper
bound is listed where the lower one follows from it: for symmetric modes, and for outputs with half the range.  Activations have
output bounds, embeddings weight bounds, layers both (the output ones if there are any). -/
theorem C146_clipping_values (p : PW) (f : Bool) (l : List (String × List ℚ)) (h : p.clips f = .ok l) (n : String) (v : List ℚ) :
    (n, v) ∈ l ↔
      (n = "output_clipping" ∧ p.kind ≠ .emb ∧ ∃ lo hi, p.outClip = .ok (lo, hi) ∧
        v = if f = true ∧ (p.actMode.isSym = true ∨ p.half = true) then [hi] else [lo, hi]) ∨
      (n = "weight_clipping" ∧ p.kind ≠ .act ∧ ∃ lo hi, p.wClip = .ok (lo, hi) ∧
        v = if f = true ∧ p.wMode.isSym = true then [hi] else [lo, hi]) := by
  have ho : ∀ o, p.outClips f = .ok o → ((n, v) ∈ o ↔ n = "output_clipping" ∧ ∃ lo hi, p.outClip = .ok (lo, hi) ∧
        v = if f = true ∧ (p.actMode.isSym = true ∨ p.half = true) then [hi] else [lo, hi]) := by
    intro o ho
    unfold PW.outClips at ho
    obtain ⟨w, hw, ho⟩ := ok_bind ho
    cases ho
    obtain ⟨lo, hi⟩ := w
    simp only [List.mem_singleton, Prod.mk.injEq, hw, Except.ok.injEq]
    constructor
    · rintro ⟨rfl, rfl⟩
      refine ⟨rfl, lo, hi, ⟨rfl, rfl⟩, ?_⟩
      unfold clipListed
      by_cases hc : f = true ∧ (p.actMode.isSym = true ∨ p.half = true)
      · rw [if_pos hc, if_pos (by simpa using hc)]
      · rw [if_neg hc, if_neg (by simpa using hc)]
    · rintro ⟨rfl, lo', hi', ⟨rfl, rfl⟩, rfl⟩
      refine ⟨rfl, ?_⟩
      unfold clipListed
      by_cases hc : f = true ∧ (p.actMode.isSym = true ∨ p.half = true)
      · rw [if_pos hc, if_pos (by simpa using hc)]
      · rw [if_neg hc, if_neg (by simpa using hc)]
  have hw : ∀ o, p.wClips f = .ok o → ((n, v) ∈ o ↔ n = "weight_clipping" ∧ ∃ lo hi, p.wClip = .ok (lo, hi) ∧
        v = if f = true ∧ p.wMode.isSym = true then [hi] else [lo, hi]) := by
    intro o ho
    unfold PW.wClips at ho
    obtain ⟨w, hw, ho⟩ := ok_bind ho
    cases ho
    obtain ⟨lo, hi⟩ := w
    simp only [List.mem_singleton, Prod.mk.injEq, hw, Except.ok.injEq]
    constructor
    · rintro ⟨rfl, rfl⟩
      refine ⟨rfl, lo, hi, ⟨rfl, rfl⟩, ?_⟩
      unfold clipListed
      by_cases hc : f = true ∧ p.wMode.isSym = true
      · rw [if_pos hc, if_pos (by simpa using hc)]
      · rw [if_neg hc, if_neg (by simpa using hc)]
    · rintro ⟨rfl, lo', hi', ⟨rfl, rfl⟩, rfl⟩
      refine ⟨rfl, ?_⟩
      unfold clipListed
      by_cases hc : f = true ∧ p.wMode.isSym = true
      · rw [if_pos hc, if_pos (by simpa using hc)]
      · rw [if_neg hc, if_neg (by simpa using hc)]
  unfold PW.clips at h
  cases hk : p.kind with
  | act => rw [hk] at h; rw [ho l h]; simp
  | emb => rw [hk] at h; rw [hw l h]; simp
  | layer =>
    rw [hk] at h
    simp only at h
    cases hc : p.wClips f with
    | error e => rw [hc] at h; cases h
    | ok o =>
      rw [hc] at h
      cases h
      rw [List.mem_append, hw o hc]
      unfold PW.outClipsWarn
      cases hoc : p.outClips f with
      | ok o' => simp only [ho o' hoc]; simp
      | error e =>
        have hno : ∀ lo hi, p.outClip ≠ .ok (lo, hi) := by
          intro lo hi he
          unfold PW.outClips at hoc
          rw [he] at hoc
          cases hoc
        simp only [List.not_mem_nil, false_or]
        constructor
        · rintro ⟨a, b⟩; exact Or.inr ⟨a, by simp, b⟩
        · rintro (⟨-, -, lo, hi, he, -⟩ | ⟨a, -, b⟩)
          · exact absurd he (hno lo hi)
          · exact ⟨a, b⟩

example : (pnLayer.clips true).toOption.isSome = true ∧ (pnAct.clips true).toOption.isSome = true := by decide +kernel

/-- **C146 violated** Setting a weight scale by name through the quantizer leaves the weights quantized with the old scale, so they no
longer represent the layer's weights (setting it on the wrapper, or setting the clipping range, re-quantizes them). -/
theorem C146_violated_weight_scale : ∃ (q : PQ) (m : Name) (v : ℚ), q.WF ∧ q.Consistent ∧
    ∃ q', q.setParam m "w_scale" (.float v) = .ok q' ∧ ¬ q'.Consistent := by
  refine ⟨pnQ, ["conv"], 50, ⟨by decide, rfl⟩, ?_, ?_⟩
  · intro m p h hs
    have hm : (m, some p) ∈ [([""], none), (["conv"], some pnLayer), (["add"], some pnAct)] := h
    simp at hm
    rcases hm with ⟨rfl, rfl⟩ | ⟨rfl, rfl⟩
    · decide +kernel
    · decide +kernel
  · refine ⟨_, rfl, ?_⟩
    intro hc
    have := hc ["conv"] { pnLayer with wP := (50, 0), readjust := true } (by simp [PQ.forceReadjust, PQ.put, pnQ, prepared, Dict.set, pnLayer, PW.fill, PW.rd]) rfl
    revert this
    decide +kernel

/-- **C146 violated** One activation wrapper without statistics makes listing the clipping values of the whole model fail. -/
theorem C146_violated_listing : ∃ q : PQ, q.WF ∧ q.clipping false = .error .runtime :=
  ⟨prepared [(["conv"], some pnLayer), (["add"], some { pnAct with preset := false })], ⟨by decide, rfl⟩, by decide +kernel⟩

end Verif
