import Verif.Model.Lottery
import Verif.Props.Checkpoint
import Verif.Props.Masking2
/-!
# C149: lottery tickets
-/
namespace Verif
open Dict

/-- Specification: the ticket's weights: those of the untrained network where the pruned network's weight is not zero, and zero
elsewhere. -/
def ticketWeights (untrained pruned : Tensor) : Tensor :=
  List.zipWith (fun x y => if y = 0 then 0 else x) untrained pruned

theorem tmul_nonzeroMask (u p : Tensor) : tmul u (nonzeroMask p) = ticketWeights u p := by
  unfold tmul nonzeroMask ticketWeights
  rw [List.zipWith_map_right]
  congr 1
  funext x y
  by_cases h : y = 0 <;> simp [h]

theorem ticketMasks_all (params : Dict Name Tensor) (mk : Dict Name Masker)
    (hmk : ∀ n ∈ params.map Prod.fst, n ∈ mk.map Prod.fst) :
    ticketMasks params mk = params.map (fun q => (q.1, nonzeroMask q.2)) := by
  unfold ticketMasks
  congr 1
  refine List.filter_eq_self.2 (fun q hq => ?_)
  exact (get?_isSome_iff mk q.1).2 (hmk _ (List.mem_map.2 ⟨q, hq, rfl⟩))

/-- Masking by a list of masks whose names are distinct. -/
theorem maskFold (ms : List (Name × Tensor)) : ∀ (d : Dict Name Tensor), (ms.map Prod.fst).Nodup →
    (∀ q ∈ ms, ∃ w, Dict.get? d q.1 = some w ∧ w.length = q.2.length) →
    ∃ d', ms.foldlM maskInPlace d = .ok d' ∧ d'.map Prod.fst = d.map Prod.fst ∧
      (∀ q ∈ ms, ∀ w, Dict.get? d q.1 = some w → Dict.get? d' q.1 = some (tmul w q.2)) ∧
      (∀ n, n ∉ ms.map Prod.fst → Dict.get? d' n = Dict.get? d n) := by
  induction ms with
  | nil => intro d _ _; exact ⟨d, rfl, rfl, by simp, by simp⟩
  | cons q ms ih =>
    intro d hnd hall
    obtain ⟨w, hw, hl⟩ := hall q (by simp)
    have hnd' := List.nodup_cons.1 hnd
    have hstep : maskInPlace d q = .ok (Dict.set d q.1 (tmul w q.2)) := by
      unfold maskInPlace; rw [hw]; simp [hl]
    have hne : ∀ r ∈ ms, q.1 ≠ r.1 := fun r hr h => hnd'.1 (h ▸ List.mem_map.2 ⟨r, hr, rfl⟩)
    obtain ⟨d', h1, h2, h3, h4⟩ := ih (Dict.set d q.1 (tmul w q.2)) hnd'.2 (fun r hr => by
      obtain ⟨w', hw', hl'⟩ := hall r (by simp [hr])
      exact ⟨w', by rw [get?_set_ne d _ (hne r hr)]; exact hw', hl'⟩)
    refine ⟨d', ?_, ?_, ?_, ?_⟩
    · rw [List.foldlM_cons, hstep]; exact h1
    · rw [h2]; exact keys_set_of_mem d _ _ ((get?_isSome_iff d q.1).1 (by rw [hw]; rfl))
    · intro r hr w' hw'
      rcases List.mem_cons.1 hr with rfl | hr
      · rw [h4 _ hnd'.1, get?_set_self]
        rw [hw] at hw'; cases hw'; rfl
      · refine h3 r hr w' ?_
        rw [get?_set_ne d _ (hne r hr)]; exact hw'
    · intro n hn
      simp only [List.map_cons, List.mem_cons, not_or] at hn
      rw [h4 n hn.2, get?_set_ne d _ (fun h => hn.1 h.symm)]

theorem mapM_sparsity (ms : List (Name × Tensor)) (h : ∀ q ∈ ms, q.2 ≠ []) :
    ∃ l, ms.mapM (fun q => sparsity q.2) = .ok l := by
  induction ms with
  | nil => exact ⟨[], rfl⟩
  | cons q ms ih =>
    obtain ⟨l, hl⟩ := ih (fun r hr => h r (by simp [hr]))
    have hq : q.2.length ≠ 0 := by
      have := h q (by simp)
      rwa [ne_eq, List.length_eq_zero_iff]
    obtain ⟨x, hx⟩ : ∃ x, sparsity q.2 = .ok x := by
      unfold sparsity density; rw [if_neg hq]; exact ⟨_, rfl⟩
    refine ⟨x :: l, ?_⟩
    rw [List.mapM_cons, hx]
    show ((ms.mapM fun q => sparsity q.2).bind fun l => Except.ok (x :: l)) = _
    rw [hl]; rfl

theorem initFromMasks_keys (mk : Dict Name Masker) (masks : MasksDict) :
    (initFromMasksDict mk masks).1.map Prod.fst = mk.map Prod.fst := by
  have key : ∀ (l : MasksDict) (mk : Dict Name Masker), (loadLoop l mk).1.map Prod.fst = mk.map Prod.fst := by
    intro l mk
    induction mk with
    | nil => rfl
    | cons q mk ih =>
      obtain ⟨n, m⟩ := q
      unfold loadLoop
      cases hg : l.get? n with
      | none => rfl
      | some v => simp [ih]
  unfold initFromMasksDict loadStateDict
  exact key _ _

/-- **C149** (the ticket) For an untrained and a pruned network of the same parameter names and sizes, none of them empty, the
extraction succeeds.  The checkpoint written holds the untrained network with every weight of a pruned position set to zero and
every other weight unchanged, its buffers unchanged, and a scheduler whose masks are exactly the positions of non-zero weights of
the pruned network. -/
theorem C149_ticket (u p : NetState) (mk : Dict Name Masker) (opt : Option OptState) (arch : String)
    (hnd : (p.params.map Prod.fst).Nodup) (hkeys : u.params.map Prod.fst = p.params.map Prod.fst)
    (hsz : SameSizes u.params p.params) (hne : ∀ q ∈ p.params, q.2 ≠ [])
    (hmk : mk.map Prod.fst = p.params.map Prod.fst) (ha : p.arch = some arch) :
    ∃ u' mk', extractTicket u p mk opt = .ok (saveCkpt 0 arch u' opt (some mk')) ∧
      u'.params.map Prod.fst = u.params.map Prod.fst ∧ u'.buffers = u.buffers ∧ mk'.map Prod.fst = p.params.map Prod.fst ∧
      ∀ n wu wp, Dict.get? u.params n = some wu → Dict.get? p.params n = some wp →
        Dict.get? u'.params n = some (ticketWeights wu wp) ∧
        ∃ m k, mk'.get? n = some m ∧ m.mask = some k ∧ k.length = wp.length ∧
          ∀ (i : ℕ) (x : ℚ), wp[i]? = some x → k[i]? = some (if x = 0 then 0 else 1) := by
  have hall := ticketMasks_all p.params mk (fun n hn => by rw [hmk]; exact hn)
  have hkm : (ticketMasks p.params mk).map Prod.fst = p.params.map Prod.fst := by
    rw [hall, List.map_map]; rfl
  obtain ⟨d', h1, h2, h3, -⟩ := maskFold (ticketMasks p.params mk) u.params (by rw [hkm]; exact hnd) (by
    intro q hq
    rw [hall] at hq
    obtain ⟨r, hr, rfl⟩ := List.mem_map.1 hq
    have hg := get?_of_mem (d := p.params) hnd hr
    have := hsz r.1
    rw [hg] at this
    cases hu : Dict.get? u.params r.1 with
    | none => rw [hu] at this; cases this
    | some w =>
      rw [hu] at this
      simp only [Option.map_some, Option.some.injEq] at this
      exact ⟨w, rfl, by simp [nonzeroMask, this]⟩)
  obtain ⟨l, hl⟩ := mapM_sparsity (ticketMasks p.params mk) (by
    intro q hq
    rw [hall] at hq
    obtain ⟨r, hr, rfl⟩ := List.mem_map.1 hq
    simpa [nonzeroMask] using hne r hr)
  obtain ⟨i1, i2⟩ := C56_init_from_masks mk ((ticketMasks p.params mk).map (fun q => (q.1, some q.2)))
  refine ⟨{ u with params := d' }, (initFromMasksDict mk ((ticketMasks p.params mk).map (fun q => (q.1, some q.2)))).1,
    ?_, h2, rfl, ?_, ?_⟩
  · unfold extractTicket
    simp only [h1, hl, i1, ha]
    rfl
  · rw [initFromMasks_keys]; exact hmk
  · intro n wu wp hu hp
    have hmem : (n, nonzeroMask wp) ∈ ticketMasks p.params mk := by
      rw [hall]; exact List.mem_map.2 ⟨(n, wp), mem_of_get? hp, rfl⟩
    refine ⟨?_, ?_⟩
    · rw [← tmul_nonzeroMask]; exact h3 _ hmem wu hu
    · have hn : n ∈ mk.map Prod.fst := by
        rw [hmk]; exact (get?_isSome_iff _ _).1 (by rw [hp]; rfl)
      obtain ⟨m, hm⟩ := Option.isSome_iff_exists.1 ((get?_isSome_iff mk n).2 hn)
      have hg : Dict.get? ((ticketMasks p.params mk).map (fun q => (q.1, some q.2))) n = some (some (nonzeroMask wp)) := by
        refine get?_of_mem ?_ (List.mem_map.2 ⟨_, hmem, rfl⟩)
        show (List.map Prod.fst (List.map _ _)).Nodup
        rw [List.map_map]
        have : (Prod.fst ∘ fun q : Name × Tensor => (q.1, some q.2)) = Prod.fst := rfl
        rw [this, hkm]; exact hnd
      refine ⟨_, nonzeroMask wp, i2 n m hm, by simp [hg], by simp [nonzeroMask], ?_⟩
      intro i x hx
      simp [nonzeroMask, hx]

/-- Restated for a single weight: the ticket keeps the initial value of a weight exactly if the pruned network kept the weight. -/
theorem C149_each_weight (wu wp : Tensor) (i : ℕ) (x y : ℚ) (hu : wu[i]? = some x) (hp : wp[i]? = some y) :
    (ticketWeights wu wp)[i]? = some (if y = 0 then 0 else x) := by
  simp [ticketWeights, List.getElem?_zipWith, hu, hp]

/-- **C149** (reloading) The checkpoint can be loaded into a fresh model of the same architecture: its parameters are then the
ticket's weights and the scheduler's masks the non-zero positions of the pruned network. -/
theorem C149_reload (u p m0 : NetState) (mk : Dict Name Masker) (opt : OptState) (arch : String)
    (hnd : (p.params.map Prod.fst).Nodup) (hkeys : u.params.map Prod.fst = p.params.map Prod.fst)
    (hsz : SameSizes u.params p.params) (hne : ∀ q ∈ p.params, q.2 ≠ [])
    (hmk : mk.map Prod.fst = p.params.map Prod.fst) (ha : p.arch = some arch) (harch : arch ≠ "")
    (hbuf : ((u.params ++ u.buffers).map Prod.fst).Nodup)
    (hp0 : m0.params.map Prod.fst = u.params.map Prod.fst) (hb0 : m0.buffers.map Prod.fst = u.buffers.map Prod.fst)
    (hps : SameSizes m0.params u.params) (hbs : SameSizes m0.buffers u.buffers)
    (hopt : opt.nparams = u.params.length) (ha0 : m0.arch = none ∨ m0.arch = some arch) :
    ∃ c m' mk', extractTicket u p mk (some opt) = .ok c ∧ loadCkpt m0 c false none = (m', .ok ⟨some mk', some opt, 1⟩) ∧
      (∀ n wu wp, Dict.get? u.params n = some wu → Dict.get? p.params n = some wp →
        m'.params.get? n = some (ticketWeights wu wp) ∧ mk'.get? n = some { mask := some (nonzeroMask wp) }) ∧
      (∀ n, m'.buffers.get? n = u.buffers.get? n) ∧
      m'.params.map Prod.fst = u.params.map Prod.fst ∧ mk'.map Prod.fst = u.params.map Prod.fst := by
  obtain ⟨u', mk', h1, h2, h3, h4, h5⟩ := C149_ticket u p mk (some opt) arch hnd hkeys hsz hne hmk ha
  have hlen : u'.params.length = u.params.length := by
    have := congrArg List.length h2; simpa using this
  have hsame : SameSizes m0.params u'.params := by
    intro n
    rw [hps n]
    cases hu : Dict.get? u.params n with
    | none =>
      have : n ∉ u.params.map Prod.fst := (get?_eq_none_iff _ _).1 hu
      rw [← h2] at this
      rw [(get?_eq_none_iff _ _).2 this]
    | some wu =>
      have hn : n ∈ p.params.map Prod.fst := by
        rw [← hkeys]; exact (get?_isSome_iff _ _).1 (by rw [hu]; rfl)
      obtain ⟨wp, hp⟩ := Option.isSome_iff_exists.1 ((get?_isSome_iff p.params n).2 hn)
      rw [(h5 n wu wp hu hp).1]
      have := hsz n
      rw [hu, hp] at this
      simp only [Option.map_some, Option.some.injEq] at this
      simp [ticketWeights, this]
  have hnd' : (u'.params ++ u'.buffers).Nodup := by
    show ((u'.params ++ u'.buffers).map Prod.fst).Nodup
    rw [h3, List.map_append, h2, ← List.map_append]; exact hbuf
  obtain ⟨m', mk2, r1, r2, r3, r4, r5, r6⟩ := C44_round_trip 0 arch harch u' m0 opt mk' hnd'
    (by rw [h2]; exact hp0) (by rw [h3]; exact hb0) hsame (by rw [h3]; exact hbs)
    (by rw [hlen]; exact hopt) (by rw [h4, h2, hkeys]) ha0
  refine ⟨_, m', mk2, h1, r1, ?_, ?_, by rw [r6, hp0], by rw [r4, hp0]⟩
  · intro n wu wp hu hp
    obtain ⟨a1, m, k, a2, a3, a4, a5⟩ := h5 n wu wp hu hp
    refine ⟨by rw [r2, a1], ?_⟩
    rw [r5 n m a2, a3]
    congr 3
    apply List.ext_getElem?
    intro i
    cases hx : wp[i]? with
    | none =>
      have hi : wp.length ≤ i := List.getElem?_eq_none_iff.1 hx
      rw [List.getElem?_eq_none (by omega), List.getElem?_eq_none (by simpa [nonzeroMask] using hi)]
    | some x => rw [a5 i x hx]; simp [nonzeroMask, hx]
  · intro n; rw [r3, h3]

/-- **C149** (training the ticket) Training the reloaded ticket with a schedule that has no policy in those epochs, whatever the
optimizer does to the weights and however many minibatches there are, leaves after every minibatch a weight of zero at every
position where the pruned network's weight was zero. -/
theorem C149_training (env : Env) (params : Dict Name Tensor) (mk : Dict Name Masker) (sched : Sched) (pols : Nat → Policy)
    (evs : List Ev) (e : Int) (mb mpe : Nat) (st' : State)
    (hq : ∀ ev ∈ evs ++ [.mbEnd e mb mpe], ∀ x, ev.epoch? = some x → sched.active x = [])
    (hmk : mk.map Prod.fst = params.map Prod.fst)
    (h : run env ⟨{ params := params, maskers := mk }, sched, pols⟩ (evs ++ [.mbEnd e mb mpe]) = .ok st')
    (n : Name) (wp w : Tensor) (hm : mk.get? n = some { mask := some (nonzeroMask wp) })
    (hw : st'.store.params.get? n = some w) (i : ℕ) (hz : wp[i]? = some 0) : w[i]? = none ∨ w[i]? = some 0 := by
  obtain ⟨q1, -, -⟩ := quiet_run (evs ++ [.mbEnd e mb mpe]) (st := ⟨{ params := params, maskers := mk }, sched, pols⟩)
    (by intro n hn; rw [hmk]; exact hn) hq h
  have hz' := C03_pruned_weights_zero env _ st' evs e mb mpe h n w _ (nonzeroMask wp) hw (by rw [q1]; exact hm) rfl rfl
  cases hx : w[i]? with
  | none => exact Or.inl rfl
  | some x => exact Or.inr (by rw [hz' i (by simp [nonzeroMask, hz]) x hx])

/-! Instances -/
def ltU : NetState := { params := [(["conv", "w"], [3, 4, 5]), (["bn", "b"], [0, 0])], buffers := [(["bn", "mean"], [1])] }
def ltP : NetState := { params := [(["conv", "w"], [0, 7, 0]), (["bn", "b"], [0, 2])], buffers := [(["bn", "mean"], [9])], arch := some "net" }
def ltMk : Dict Name Masker := [(["conv", "w"], { mask := some [0, 1, 0] }), (["bn", "b"], {})]

example : extractTicket ltU ltP ltMk (some ⟨"SGD", 2, 41⟩) =
    .ok (saveCkpt 0 "net" { params := [(["conv", "w"], [0, 4, 0]), (["bn", "b"], [0, 0])], buffers := [(["bn", "mean"], [1])] }
      (some ⟨"SGD", 2, 41⟩) (some [(["conv", "w"], { mask := some [0, 1, 0] }), (["bn", "b"], { mask := some [0, 1] })])) := by
  decide +kernel

example : (ltP.params.map Prod.fst).Nodup ∧ ltU.params.map Prod.fst = ltP.params.map Prod.fst ∧
    (∀ q ∈ ltP.params, q.2 ≠ []) ∧ ltMk.map Prod.fst = ltP.params.map Prod.fst ∧
    ((ltU.params ++ ltU.buffers).map Prod.fst).Nodup := by decide +kernel

/-- C149 is violated: a parameter that no pruner touched is frozen at zero too, wherever the trained network's value happens to
be zero (here the offsets of a normalization layer, which start at zero): the ticket's scheduler holds a mask with zeros for a
parameter for which the pruned network's scheduler had no mask. -/
theorem C149_violated_unpruned : ∃ (u p : NetState) (mk : Dict Name Masker) (n : Name) (c : Ckpt),
    mk.get? n = some {} ∧ extractTicket u p mk none = .ok c ∧
    ∃ d, c.sched = some (some d) ∧ d.get? n = some (some [0, 1]) :=
  ⟨ltU, ltP, ltMk, ["bn", "b"], saveCkpt 0 "net" { ltU with params := [(["conv", "w"], [0, 4, 0]), (["bn", "b"], [0, 0])] } none
      (some [(["conv", "w"], { mask := some [0, 1, 0] }), (["bn", "b"], { mask := some [0, 1] })]),
    by decide +kernel, by decide +kernel, [(["conv", "w"], some [0, 1, 0]), (["bn", "b"], some [0, 1])],
    by decide +kernel, by decide +kernel⟩

/-- C149 is violated: the ticket is stored with epoch 0 and so training it resumes at epoch 1: an epoch-0 entry of its schedule
never takes place; and it is stored with the optimizer state of the finished pruning run, not a fresh one. -/
theorem C149_violated_state (u p : NetState) (mk : Dict Name Masker) (opt : Option OptState) (c : Ckpt)
    (h : extractTicket u p mk opt = .ok c) :
    c.opt = opt ∧ ∀ (m0 m' : NetState) (r : Loaded), loadCkpt m0 c false none = (m', .ok r) → r.startEpoch = 1 ∧ r.opt = opt := by
  unfold extractTicket at h
  obtain ⟨params, -, h⟩ := ok_bind h
  obtain ⟨_, -, h⟩ := ok_bind h
  obtain ⟨_, -, h⟩ := ok_bind h
  have key : c.epoch = some 0 ∧ c.opt = opt := by
    cases ha : p.arch with
    | none => rw [ha] at h; cases h
    | some a => rw [ha] at h; injection h with h; subst h; exact ⟨rfl, rfl⟩
  refine ⟨key.2, fun m0 m' r hr => ⟨(C44_start_epoch m0 m' c false none r hr).1 rfl 0 key.1, ?_⟩⟩
  obtain ⟨sd, m1, mk, norm, -, -, -, -, -, -, h7⟩ := loadCkpt_ok hr
  have := (h7 rfl).2.1
  rw [key.2] at this
  cases opt with
  | none => simpa [loadOpt] using this.symm
  | some o =>
    unfold loadOpt at this
    simp only at this
    split at this
    · injection this with this; exact this.symm
    · cases this

/-- **C149** (no architecture) No ticket is written for a pruned model that does not know its architecture: a checkpoint written by
`extract_lottery_ticket` always names it. -/
theorem C149_arch (u p : NetState) (mk : Dict Name Masker) (opt : Option OptState) (c : Ckpt)
    (h : extractTicket u p mk opt = .ok c) : p.arch.isSome ∧ (p.arch ≠ some "" → c.arch = p.arch) := by
  unfold extractTicket at h
  obtain ⟨params, -, h⟩ := ok_bind h
  obtain ⟨_, -, h⟩ := ok_bind h
  obtain ⟨_, -, h⟩ := ok_bind h
  cases ha : p.arch with
  | none => rw [ha] at h; cases h
  | some a => rw [ha] at h; cases h; exact ⟨rfl, fun hne => by simp [saveCkpt] at hne ⊢; exact fun h => absurd h hne⟩

/-- **C149** (not a thinned network) A pruned network in which a parameter has become smaller is refused, as the help text of the
script says it must be. -/
theorem C149_thinned_refused (u p : NetState) (mk : Dict Name Masker) (opt : Option OptState)
    (hnd : (p.params.map Prod.fst).Nodup) (n : Name) (wu wp : Tensor) (hu : Dict.get? u.params n = some wu)
    (hp : Dict.get? p.params n = some wp) (hn : n ∈ mk.map Prod.fst) (hl : wu.length ≠ wp.length) :
    ∀ c, extractTicket u p mk opt ≠ .ok c := by
  intro c h
  unfold extractTicket at h
  obtain ⟨params, h1, -⟩ := ok_bind h
  have hmem : (n, nonzeroMask wp) ∈ ticketMasks p.params mk := by
    unfold ticketMasks
    exact List.mem_map.2 ⟨(n, wp), List.mem_filter.2 ⟨mem_of_get? hp, (get?_isSome_iff mk n).2 hn⟩, rfl⟩
  have hnd2 : ((ticketMasks p.params mk).map Prod.fst).Nodup := by
    unfold ticketMasks
    rw [List.map_map]
    exact hnd.sublist (List.Sublist.map _ List.filter_sublist)
  have key : ∀ (ms : List (Name × Tensor)) (d d' : Dict Name Tensor), (ms.map Prod.fst).Nodup →
      ms.foldlM maskInPlace d = .ok d' → ∀ q ∈ ms, ∃ w, Dict.get? d q.1 = some w ∧ w.length = q.2.length := by
    intro ms
    induction ms with
    | nil => simp
    | cons a ms ih =>
      intro d d' hnd h q hq
      rw [List.foldlM_cons] at h
      obtain ⟨d1, h1, h2⟩ := ok_bind h
      have hnd' := List.nodup_cons.1 hnd
      unfold maskInPlace at h1
      cases hw : Dict.get? d a.1 with
      | none => rw [hw] at h1; cases h1
      | some w =>
        rw [hw] at h1
        simp only at h1
        by_cases hl : w.length = a.2.length
        · rw [if_pos hl] at h1; injection h1 with h1; subst h1
          rcases List.mem_cons.1 hq with rfl | hq
          · exact ⟨w, hw, hl⟩
          · obtain ⟨w', k1, k2⟩ := ih _ _ hnd'.2 h2 q hq
            have : a.1 ≠ q.1 := fun h => hnd'.1 (h ▸ List.mem_map.2 ⟨q, hq, rfl⟩)
            rw [get?_set_ne d _ this] at k1
            exact ⟨w', k1, k2⟩
        · rw [if_neg hl] at h1; cases h1
  obtain ⟨w, k1, k2⟩ := key _ _ _ hnd2 h1 _ hmem
  rw [hu] at k1; cases k1
  exact hl (by simpa [nonzeroMask] using k2)

example : extractTicket ltU { ltP with params := [(["conv", "w"], [7]), (["bn", "b"], [0, 2])] } ltMk none = .error .runtime := by
  decide +kernel

end Verif
