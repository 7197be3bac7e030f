import Verif.Spec.Range
import Verif.Props.Intact
import Verif.Props.Losses

/-!
# Ranges of predictions and losses: helper lemmas for C102
-/

namespace SmartDNN
open Net Spec

section
variable {ρ : Type}

theorem map_elements {P : ℝ → Prop} {f : ℝ → ℝ} (h : ∀ x, P (f x)) (t : Tensor ℝ) : Gives (Elements P) (t.map f) := by
  unfold Tensor.map
  refine gives_any fun xs => gives_pure fun y hy => ?_
  obtain ⟨x, -, rfl⟩ := List.mem_map.1 hy
  exact h x

theorem range_of {P : ℝ → Prop} {f : ℝ → ℝ} (h : ∀ g : List Nat → ℝ, ∃ k, (ofFn [1] g).map f = .ok (ofFn [1] k) ∧ ∀ i, P (k i)) (x : ℝ) : P (f x) := by
  obtain ⟨k, h1, h2⟩ := h fun _ => x
  rw [map_ofFn] at h1
  have := ofFn_inj (Except.ok.inj h1) (idx := [0]) (List.Forall₂.cons (by simp) .nil)
  rw [this]
  exact h2 [0]

theorem softmax_shape (x : Tensor ℝ) : Gives (fun y => y.shape = x.shape) (Act.softmaxForward x) := by
  have hset : ∀ {t : Tensor ℝ} {i v}, t.shape = x.shape → Gives (fun y => y.shape = x.shape) (t.set i v) := fun h => gives_any fun _ => gives_pure h
  unfold Act.softmaxForward
  by_cases hr : x.shape.rank < 2
  · rw [if_pos hr]; exact gives_error _
  · rw [if_neg hr]
    refine gives_any fun bs => gives_any fun ft => gives_forI (I := fun y : Tensor ℝ => y.shape = x.shape) rfl fun b o ho => gives_any fun mv => ?_
    refine gives_bind (Q := fun st : Tensor ℝ × ℝ => st.1.shape = x.shape) ?_ fun st hst => gives_forI hst fun i o ho => gives_any fun _ => hset ho
    exact gives_forI (I := fun st : Tensor ℝ × ℝ => st.1.shape = x.shape) ho fun i st hst => gives_any fun _ => gives_bind (hset hst) fun o ho => gives_pure ho

theorem le_total_of {ds : List Nat} {p : List Nat → ℝ} (h : ∀ i, ValidIdx ds i → 0 ≤ p i) {i : List Nat} (hi : ValidIdx ds i) : p i ≤ total ds p := by
  rw [← total_single hi p]
  refine total_mono fun j hj => ?_
  split
  · exact le_refl _
  · exact h j hj

theorem act_inRange (a : Act ℝ) {x : Tensor ℝ} (hx : Intact x) : Gives (InRange a) (a.forward x) := by
  cases a with
  | relu =>
    refine map_elements (fun x => ?_) x
    exact cmax_ge_left 0 x
  | sigmoid =>
    refine map_elements (range_of fun g => ?_) x
    obtain ⟨k, h1, h2, -⟩ := C26_sigmoid_range [1] g
    exact ⟨k, h1, h2⟩
  | tanh =>
    refine map_elements (range_of fun g => ?_) x
    obtain ⟨k, h1, h2, -⟩ := C26_tanh_range [1] g
    exact ⟨k, h1, h2⟩
  | softmax =>
    intro y hy hl
    have hs := softmax_shape x y hy
    rw [hs] at hl
    obtain ⟨ds, f, hd, rfl⟩ := (C101_form x hl).1 hx
    rcases ds with _ | ⟨d, ds⟩
    · exact absurd rfl hd.ne
    by_cases hne : ds = []
    · subst hne
      rw [C27_rank1 (by simp)] at hy
      cases hy
    · obtain ⟨p, h1, h2, h3, -⟩ := C27_distribution hd hne f
      rw [h1] at hy
      cases hy
      refine ⟨d, ds, p, hd, rfl, fun idx hi => ⟨h2 idx hi, ?_⟩, h3⟩
      cases hi with
      | @cons b _ i _ hb hi =>
        rw [← h3 b hb]
        exact le_total_of (p := fun y => p (b :: y)) (fun j hj => (h2 _ (List.Forall₂.cons hb hj)).le) hi
  | _ => exact fun _ _ => trivial

theorem forwardLayers_last (E : Engine ρ ℝ) {P : Tensor ℝ → Prop} {l : Layer ℝ} (hl : ∀ z r, Intact z → Gives P (Layer.forward E z (l, r)).1) :
    ∀ (ls : List (Layer ℝ)), (∀ l ∈ ls, IntactLayer l) → ∀ (x : Tensor ℝ) (r : ρ), Intact x → Gives P (forwardLayers E (ls ++ [l]) x r).1 := by
  intro ls
  induction ls with
  | nil =>
    intro _ x r hx
    have := hl x r hx
    simp only [List.nil_append, forwardLayers]
    rcases hf : Layer.forward E x (l, r) with ⟨e | y, l', r'⟩
    · exact gives_error e
    · rw [hf] at this
      exact this
  | cons a ls ih =>
    intro h x r hx
    obtain ⟨-, h2⟩ := intact_layerForward E hx (a, r) (h a (by simp))
    rw [List.cons_append]
    unfold forwardLayers
    rcases hf : Layer.forward E x (a, r) with ⟨e | y, l', r'⟩
    · exact gives_error e
    · rw [hf] at h2
      exact ih (fun b hb => h b (by simp [hb])) y r' (h2 y rfl)

theorem predict_inRange (E : Engine ρ ℝ) {a : Act ℝ} {net : Net ρ ℝ} (h : IntactNet net) (ha : EndsIn a net) {x : Tensor ℝ} (hx : Intact x) :
    Gives (InRange a) (Net.predict E x net).1 := by
  obtain ⟨ls, l, b, hl, rfl⟩ := ha
  have := forwardLayers_last E (P := InRange l.activation) (l := ⟨.activation l, b⟩) (fun z r hz => act_inRange l.activation hz) ls
    (fun a ha => h.layers a (by rw [hl]; simp [ha])) x net.rng hx
  rw [← hl] at this
  exact this

/-! ### The last activation stays -/

/-- The activation of a layer, if it is an activation layer. -/
def actOf {T : Type} (l : Layer T) : Option (Act T) :=
  match l.kind with
  | .activation l => some l.activation
  | _ => none

theorem forward_actOf (E : Engine ρ ℝ) (x : Tensor ℝ) (l : Layer ℝ) (r : ρ) : actOf (Layer.forward E x (l, r)).2.1 = actOf l := by
  obtain ⟨kind, b⟩ := l
  cases kind <;> rfl

theorem backward_actOf (g : Tensor ℝ) (l : Layer ℝ) : actOf (Layer.backward g l).2 = actOf l := by
  obtain ⟨kind, b⟩ := l
  cases kind with
  | activation a =>
    obtain ⟨a, c⟩ := a
    cases c <;> rfl
  | _ => rfl

theorem update_actOf {K : Type} [DecidableEq K] (k0 k1 : K) (l : Layer ℝ) (opt : Optimizer K ℝ) : actOf (Layer.updateWeights k0 k1 (l, opt)).2.1 = actOf l := by
  obtain ⟨kind, b⟩ := l
  unfold Layer.updateWeights
  cases kind with
  | fc l => dsimp only; split <;> rfl
  | conv l => dsimp only; split <;> rfl
  | batchNorm l => dsimp only; split <;> rfl
  | _ => rfl

/-- The activations of all layers. -/
def acts (net : Net ρ ℝ) : List (Option (Act ℝ)) := net.layers.map actOf

theorem forwardLayers_acts (E : Engine ρ ℝ) : ∀ (ls : List (Layer ℝ)) (x : Tensor ℝ) (r : ρ), (forwardLayers E ls x r).2.1.map actOf = ls.map actOf := by
  intro ls
  induction ls with
  | nil => intro x r; rfl
  | cons l ls ih =>
    intro x r
    have := forward_actOf E x l r
    unfold forwardLayers
    rcases hf : Layer.forward E x (l, r) with ⟨e | y, l', r'⟩
    · rw [hf] at this
      simp [← this]
    · rw [hf] at this
      simp [← this, ih y r']

theorem backwardLayers_acts : ∀ (ls : List (Layer ℝ)) (g : Tensor ℝ), (backwardLayers ls g).2.map actOf = ls.map actOf := by
  intro ls
  induction ls with
  | nil => intro g; rfl
  | cons l ls ih =>
    intro g
    have h1 := ih g
    unfold backwardLayers
    rcases hf : backwardLayers ls g with ⟨e | y, ls'⟩
    · rw [hf] at h1
      simp [← h1]
    · rw [hf] at h1
      simp [← h1, backward_actOf]

theorem updateLayers_acts : ∀ (ls : List (Layer ℝ)) (i : Nat) (opt : Optimizer (Nat × Bool) ℝ), (updateLayers i ls opt).2.1.map actOf = ls.map actOf := by
  intro ls
  induction ls with
  | nil => intro i opt; rfl
  | cons l ls ih =>
    intro i opt
    have := update_actOf (i, false) (i, true) l opt
    unfold updateLayers
    rcases hf : Layer.updateWeights (i, false) (i, true) (l, opt) with ⟨e | ⟨⟨⟩⟩, l', opt'⟩
    · rw [hf] at this
      simp [← this]
    · rw [hf] at this
      simp [← this, ih]

theorem updateWeights_net (net : Net ρ ℝ) : acts (Net.updateWeights net).2 = acts net ∧ (Net.updateWeights net).2.loss = net.loss := by
  unfold Net.updateWeights
  split
  · exact ⟨rfl, rfl⟩
  · exact ⟨rfl, rfl⟩
  · next l ls opt hl ho =>
    refine ⟨?_, rfl⟩
    unfold acts
    rw [hl]
    exact updateLayers_acts (l :: ls) 0 opt

/-- The activations and the loss function stay what they were. -/
def SameKind (as : List (Option (Act ℝ))) (L : Option (Loss ℝ)) (net : Net ρ ℝ) : Prop := acts net = as ∧ net.loss = L

variable {as : List (Option (Act ℝ))} {L : Option (Loss ℝ)}

theorem same_predict (E : Engine ρ ℝ) (x : Tensor ℝ) : MGives (SameKind as L) (fun _ => True) (Net.predict E x : Mut (Net ρ ℝ) _) :=
  fun net h => ⟨⟨(forwardLayers_acts E net.layers x net.rng).trans h.1, h.2⟩, gives_true⟩

theorem same_predictAll (E : Engine ρ ℝ) (xs : List (Tensor ℝ)) : MGives (SameKind as L) (fun _ => True) (Net.predictAll E xs : Mut (Net ρ ℝ) _) := by
  induction xs with
  | nil => exact mgives_pure trivial
  | cons x xs ih => exact mgives_any (same_predict E x) fun y => mgives_any ih fun ys => mgives_pure trivial

theorem same_backward (g : Tensor ℝ) : MGives (SameKind as L) (fun _ => True) (Net.backward g : Mut (Net ρ ℝ) _) :=
  fun net h => ⟨⟨(backwardLayers_acts net.layers g).trans h.1, h.2⟩, gives_true⟩

theorem same_update : MGives (SameKind as L) (fun _ => True) (Net.updateWeights : Mut (Net ρ ℝ) _) :=
  fun net h => ⟨⟨(updateWeights_net net).1.trans h.1, (updateWeights_net net).2.trans h.2⟩, gives_true⟩

theorem mgives_onNet {α : Type} {I : Net ρ ℝ → Prop} {J : Tensor ℝ → List (Tensor ℝ) → Prop} {P : α → Prop} {m : Mut (Net ρ ℝ) α}
    (h : MGives I P m) : MGives (fun s : Session ρ ℝ => I s.net ∧ J s.total s.printed) P (Session.onNet m) :=
  fun s hs => ⟨⟨(h s.net hs.1).1, hs.2⟩, (h s.net hs.1).2⟩

/-- What training does to the kind of the model and to the losses it prints, if `Q` holds of every value of the loss function that
can occur. -/
theorem train_same (E : Engine ρ ℝ) (xs ys : List (Tensor ℝ)) (epochs : Int) {Q : Tensor ℝ → Prop} {R : Tensor ℝ → Prop}
    (hQ : ∀ l p t, L = some l → t ∈ ys → Gives Q (l.compute p t)) (h0 : Gives R ((Shape.make [1]).map fun s => Tensor.full s (0 : ℝ)))
    (hadd : ∀ tot v, R tot → Q v → Gives R (tot.addAssign (some v))) (hdiv : ∀ tot, R tot → Gives R (tot.divScalar (xs.length : ℝ))) :
    MGives (fun s : Session ρ ℝ => SameKind as L s.net ∧ R s.total ∧ ∀ p ∈ s.printed, R p) (fun _ => True) (Net.train E xs ys epochs) := by
  unfold Net.train
  refine mgives_forN (fun _ => ?_) _
  unfold trainEpoch
  have hsample : ∀ x i, MGives (fun s : Session ρ ℝ => SameKind as L s.net ∧ R s.total ∧ ∀ p ∈ s.printed, R p) (fun _ => True) (trainSample E x ys i) := by
    intro x i
    unfold trainSample
    refine mgives_any (mgives_onNet (J := fun t ps => R t ∧ ∀ p ∈ ps, R p) (same_predict E x)) fun p => mgives_bind mgives_get fun s hs =>
      mgives_bind (mgives_lift (P := fun l => L = some l) ?_) fun l hl => mgives_bind (mgives_lift (P := fun t => t ∈ ys) ?_) fun t ht =>
      mgives_bind (mgives_lift (hQ l p t hl ht)) fun v hv => mgives_bind (mgives_lift (hadd _ _ hs.2.1 hv)) fun tot htot =>
      mgives_any (mgives_modify fun s h => ⟨h.1, htot, h.2.2⟩) fun _ => mgives_any (mgives_lift gives_true) fun g =>
      mgives_any (mgives_onNet (J := fun t ps => R t ∧ ∀ p ∈ ps, R p) (same_backward g)) fun _ =>
      mgives_onNet (J := fun t ps => R t ∧ ∀ p ∈ ps, R p) same_update
    · intro l h
      rw [← hs.1.2]
      cases hl : s.net.loss with
      | none => rw [hl] at h; cases h
      | some l' => rw [hl] at h; cases h; rfl
    · intro t h
      unfold rd at h
      split at h
      · split at h
        · next y hy =>
          cases h
          exact List.mem_of_getElem? hy
        · cases h
      · cases h
  have hsamples : ∀ zs i, MGives (fun s : Session ρ ℝ => SameKind as L s.net ∧ R s.total ∧ ∀ p ∈ s.printed, R p) (fun _ => True) (trainSamples E ys i zs) := by
    intro zs
    induction zs with
    | nil => intro i; exact mgives_pure trivial
    | cons z zs ih => intro i; exact mgives_any (hsample z i) fun _ => ih (i + 1)
  refine mgives_bind (mgives_lift (P := fun s => R (Tensor.full s 0)) fun s hs => h0 _ (by rw [hs]; rfl)) fun s hs =>
    mgives_any (mgives_modify fun _ h => ⟨h.1, hs, h.2.2⟩) fun _ => mgives_any (hsamples xs 0) fun _ => mgives_bind mgives_get fun s hs =>
    mgives_bind (mgives_lift (hdiv _ hs.2.1)) fun r hr => mgives_modify fun s h => ⟨h.1, h.2.1, fun p hp =>
      (List.mem_append.1 hp).elim (h.2.2 p) fun h' => List.mem_singleton.1 h' ▸ hr⟩

end

section
variable {ρ : Type}

theorem elements_set {P : ℝ → Prop} {t : Tensor ℝ} (h : Elements P t) (i : Int) {v : ℝ} (hv : P v) : Gives (Elements P) (t.set i v) := by
  refine gives_bind (Q := fun d : List ℝ => ∀ x ∈ d, P x) ?_ fun d hd => gives_pure hd
  intro d hd
  unfold wr at hd
  split at hd
  · cases hd
    intro x hx
    rcases List.mem_or_eq_of_mem_set hx with h' | rfl
    · exact h x h'
    · exact hv
  · cases hd

theorem elements_full {P : ℝ → Prop} {v : ℝ} (hv : P v) (s : Shape) : Elements P (Tensor.full s v) := by
  intro x hx
  rw [List.eq_of_mem_replicate hx]
  exact hv

theorem square_nonneg (d : Tensor ℝ) : Gives (Elements fun x => 0 ≤ x) (d.mul d) := by
  unfold Tensor.mul Tensor.binop
  intro y h
  obtain ⟨rs, h1, h⟩ := bind_ok h
  obtain ⟨lv, h2, h⟩ := bind_ok h
  obtain ⟨rv, h3, h⟩ := bind_ok h
  have : rv = lv := Except.ok.inj (h3.symm.trans h2)
  subst this
  dsimp only at h
  rw [if_neg (by simp)] at h
  obtain ⟨xs, h4, h⟩ := bind_ok h
  obtain ⟨ys, h5, h⟩ := bind_ok h
  have : ys = xs := Except.ok.inj (h5.symm.trans h4)
  subst this
  obtain ⟨dd, h6, h⟩ := bind_ok h
  cases h
  unfold Tensor.transform2 at h6
  split at h6
  · cases h6
  · split at h6
    · cases h6
    · cases h6
      intro x hx
      rcases List.mem_append.1 hx with h' | h'
      · rw [List.zipWith_self] at h'
        obtain ⟨z, -, rfl⟩ := List.mem_map.1 h'
        exact mul_self_nonneg z
      · have := List.mem_of_mem_drop h'
        rw [Tensor.zeros, List.mem_replicate] at this
        exact this.2.ge

theorem foldl_nonneg : ∀ (xs : List ℝ) (s : ℝ), 0 ≤ s → (∀ x ∈ xs, 0 ≤ x) → 0 ≤ xs.foldl (· + ·) s := by
  intro xs
  induction xs with
  | nil => intro s h _; exact h
  | cons x xs ih => intro s h hx; exact ih _ (add_nonneg h (hx x (by simp))) fun y hy => hx y (by simp [hy])

theorem iter_sub (t : Tensor ℝ) : Gives (fun xs => ∀ x ∈ xs, x ∈ t.data) t.iter := by
  intro xs h
  unfold Tensor.iter at h
  split at h
  · cases h
    exact fun x hx => List.mem_of_mem_take hx
  · cases h

theorem sumAll_nonneg {t : Tensor ℝ} (h : Elements (fun x => 0 ≤ x) t) : Gives (Elements fun x => 0 ≤ x) t.sumAll := by
  unfold Tensor.sumAll
  exact gives_bind (iter_sub t) fun xs hx => gives_any fun s => gives_pure (elements_full (foldl_nonneg xs 0 (le_refl _) fun x hx' => h x (hx x hx')) s)

theorem divScalar_nonneg {t : Tensor ℝ} (h : Elements (fun x => 0 ≤ x) t) {s : ℝ} (hs : 0 ≤ s) : Gives (Elements fun x => 0 ≤ x) (t.divScalar s) := by
  unfold Tensor.divScalar
  refine gives_ite (gives_throw _) (gives_bind (iter_sub t) fun xs hx => gives_pure fun y hy => ?_)
  obtain ⟨x, hx', rfl⟩ := List.mem_map.1 hy
  exact div_nonneg (h x (hx x hx')) hs

theorem deref_mem (v : BView) (buf : List ℝ) (it : ViewIter) : Gives (fun y => y ∈ buf) (v.deref buf it) := by
  unfold BView.deref BView.read
  refine gives_ite (gives_error _) ?_
  refine gives_ite ?_ (gives_error _)
  intro y h
  unfold rd at h
  split at h
  · split at h
    · next z hz =>
      cases h
      exact List.mem_of_getElem? hz
    · cases h
  · cases h

theorem addAssign_nonneg {t v : Tensor ℝ} (ht : Elements (fun x => 0 ≤ x) t) (hv : Elements (fun x => 0 ≤ x) v) :
    Gives (Elements fun x => 0 ≤ x) (t.addAssign (some v)) := by
  refine MGives.exec (I := Elements fun x => 0 ≤ x) ?_ ht
  intro l hl
  refine ⟨?_, gives_true⟩
  unfold Tensor.binopInPlaceM
  split
  · exact hl
  · next rv _ =>
    refine (mgives_forN (I := fun st : Tensor ℝ × ViewIter => Elements (fun x => 0 ≤ x) st.1) (fun k => ?_) l.shape.size (l, ViewIter.begin rv.shape) hl).1
    refine mgives_bind mgives_get fun st hst => mgives_bind (mgives_lift (P := fun x => 0 ≤ x) ?_) fun x hx =>
      mgives_bind (mgives_lift ((deref_mem rv v.data st.2).mono fun y hy => hv y hy)) fun y hy => mgives_bind (mgives_lift (P := fun d : List ℝ => ∀ x ∈ d, 0 ≤ x) ?_) fun d hd => mgives_set hd
    · intro x h
      unfold rd at h
      split at h
      · split at h
        · next z hz =>
          cases h
          exact hst _ (List.mem_of_getElem? hz)
        · cases h
      · cases h
    · intro d hd
      unfold wr at hd
      split at hd
      · cases hd
        intro z hz
        rcases List.mem_or_eq_of_mem_set hz with h' | rfl
        · exact hst z h'
        · exact add_nonneg hx hy
      · cases hd


theorem compute_nonneg (l : Loss ℝ) (p : Tensor ℝ) {t : Tensor ℝ} (ht : GoodTarget l t) : Gives (Elements fun x => 0 ≤ x) (l.compute p t) := by
  cases l with
  | mse => exact gives_any fun _ => gives_any fun d => gives_bind (square_nonneg d) fun s hs => gives_bind (sumAll_nonneg hs) fun _ h =>
      divScalar_nonneg h (Nat.cast_nonneg _)
  | crossEntropy eps =>
    obtain ⟨h0, h1, hy⟩ := ht
    show Gives (Elements fun x => 0 ≤ x) (do
      if !(p.shape.beq t.shape) then throw .invalidArgument
      let batchSize ← p.shape.get 0
      let numClasses ← p.shape.get 1
      let loss ← forI batchSize (0 : ℝ) (fun i loss =>
        forI numClasses loss (fun j loss => do
          let x ← p.at_ [i, j]
          let y ← t.at_ [i, j]
          return loss - y * MathFn.log (Loss.clamp eps x)))
      let sh ← Shape.make [1]
      return Tensor.full sh (loss / (batchSize : ℝ)) : Res (Tensor ℝ))
    by_cases hr : (!(p.shape.beq t.shape)) = true
    · rw [if_pos hr]; exact gives_error _
    · rw [if_neg hr]
      refine gives_any fun b => gives_any fun c => gives_bind (Q := fun s : ℝ => 0 ≤ s / (b : ℝ)) ?_ fun s hs => gives_any fun sh => gives_pure (elements_full hs sh)
      by_cases hb : b ≤ 0
      · unfold forI
        rw [Int.toNat_of_nonpos hb]
        exact gives_pure (by simp)
      · refine Gives.mono (P := fun s : ℝ => 0 ≤ s) ?_ fun s hs => div_nonneg hs (by exact_mod_cast (by omega : (0:ℤ) ≤ b))
        refine gives_forI (le_refl _) fun i s hs => gives_forI hs fun j s hs => gives_any fun x => gives_bind (Q := fun y : ℝ => 0 ≤ y) ?_ fun y hy' => gives_pure ?_
        · intro y h
          unfold Tensor.at_ at h
          obtain ⟨k, -, h⟩ := bind_ok h
          unfold rd at h
          split at h
          · split at h
            · next z hz =>
              cases h
              exact hy _ (List.mem_of_getElem? hz)
            · cases h
          · cases h
        · rw [clamp_eq]
          have hc0 : 0 ≤ clampTo eps x := le_min (le_trans h0 (le_max_right _ _)) (by linarith)
          have hc1 : clampTo eps x ≤ 1 := le_trans (min_le_right _ _) (by linarith)
          have : Real.log (clampTo eps x) ≤ 0 := Real.log_nonpos hc0 hc1
          have h2 : y * Real.log (clampTo eps x) ≤ 0 := mul_nonpos_of_nonneg_of_nonpos hy' this
          exact sub_nonneg.2 (le_trans h2 hs)

theorem train_nonneg (E : Engine ρ ℝ) (xs ys : List (Tensor ℝ)) (epochs : Int) {net : Net ρ ℝ} (hy : ∀ l, net.loss = some l → ∀ t ∈ ys, GoodTarget l t) :
    SameKind (acts net) net.loss (trainCall E xs ys epochs net).2.1 ∧ ∀ p ∈ (trainCall E xs ys epochs net).2.2, Elements (fun x => 0 ≤ x) p := by
  have h := (train_same (as := acts net) (L := net.loss) E xs ys epochs (Q := Elements fun x => 0 ≤ x) (R := Elements fun x => 0 ≤ x)
    (fun l p t hl ht => compute_nonneg l p (hy l hl t ht)) (by intro t h; cases h; exact elements_full (le_refl _) _) (fun _ _ => addAssign_nonneg) (fun _ h => divScalar_nonneg h (Nat.cast_nonneg _))
    ⟨net, ofFn [1] fun _ => 0, []⟩ ⟨⟨rfl, rfl⟩, elements_full (v := (0 : ℝ)) (le_refl _) (shapeOf [1]), by simp⟩).1
  exact ⟨h.1, h.2.2⟩

theorem train_kind (E : Engine ρ ℝ) (xs ys : List (Tensor ℝ)) (epochs : Int) (net : Net ρ ℝ) :
    SameKind (acts net) net.loss (trainCall E xs ys epochs net).2.1 :=
  (train_same (as := acts net) (L := net.loss) E xs ys epochs (Q := fun _ => True) (R := fun _ => True)
    (fun _ _ _ _ _ => gives_true) gives_true (fun _ _ _ _ => gives_true) (fun _ _ => gives_true)
    ⟨net, ofFn [1] fun _ => 0, []⟩ ⟨⟨rfl, rfl⟩, trivial, fun _ _ => trivial⟩).1.1

end

section
variable {ρ : Type}

theorem endsIn_iff {a : Act ℝ} {net : Net ρ ℝ} : EndsIn a net ↔ (acts net).getLast? = some (some a) := by
  constructor
  · rintro ⟨ls, l, b, h, rfl⟩
    simp [acts, h, actOf]
  · intro h
    rcases List.eq_nil_or_concat net.layers with hn | ⟨ls, l, hl⟩
    · simp [acts, hn] at h
    · rw [acts, hl] at h
      simp only [List.concat_eq_append, List.map_append, List.map_cons, List.map_nil, List.getLast?_append, List.getLast?_singleton, Option.some_or, Option.some.injEq] at h
      obtain ⟨k, b⟩ := l
      cases k with
      | activation l =>
        refine ⟨ls, l, b, by simpa using hl, ?_⟩
        simpa [actOf] using h
      | _ => simp [actOf] at h

theorem visit_acts (E : Engine ρ ℝ) (v : Visit ℝ) (hk : v.KeepsLayers) (net : Net ρ ℝ) : acts (v.apply E net).1 = acts net := by
  cases v with
  | train xs ys n => exact (train_kind E xs ys n net).1
  | predict x => exact (same_predict E x net ⟨rfl, rfl⟩).1.1
  | predictAll xs => exact (same_predictAll E xs net ⟨rfl, rfl⟩).1.1
  | backward g => exact (same_backward g net ⟨rfl, rfl⟩).1.1
  | updateWeights => exact (same_update net ⟨rfl, rfl⟩).1.1
  | mode b =>
    unfold acts Visit.apply setTrainingMode
    simp only [List.map_map]
    rfl
  | compile L opt => rfl
  | addLayer l => exact hk.elim
  | setLayer i l => exact hk.elim

theorem visits_acts (E : Engine ρ ℝ) (vs : List (Visit ℝ)) (hk : ∀ v ∈ vs, v.KeepsLayers) (net : Net ρ ℝ) : acts (visits E vs net).1 = acts net := by
  induction vs generalizing net with
  | nil => rfl
  | cons v vs ih => exact (ih (fun w hw => hk w (by simp [hw])) _).trans (visit_acts E v (hk v (by simp)) net)

theorem predictAll_inRange (E : Engine ρ ℝ) {a : Act ℝ} (xs : List (Tensor ℝ)) (hx : ∀ x ∈ xs, Intact x) :
    MGives (fun net : Net ρ ℝ => IntactNet net ∧ EndsIn a net) (fun ys => ∀ y ∈ ys, InRange a y) (Net.predictAll E xs) := by
  induction xs with
  | nil => exact mgives_pure (by simp)
  | cons x xs ih =>
    refine mgives_bind (fun net h => ⟨⟨(intact_predict E (hx x (by simp)) net h.1).1, ?_⟩, predict_inRange E h.1 h.2 (hx x (by simp))⟩) fun y hy =>
      mgives_bind (ih fun z hz => hx z (by simp [hz])) fun ys hys => mgives_pure ?_
    · rw [endsIn_iff, (same_predict E x net ⟨rfl, rfl⟩).1.1, ← endsIn_iff]
      exact h.2
    · intro z hz
      rcases List.mem_cons.1 hz with rfl | hz
      · exact hy
      · exact hys z hz

end

end SmartDNN
