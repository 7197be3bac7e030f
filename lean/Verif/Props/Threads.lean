import Verif.Model.Threads
import Verif.Props.Parallel
import Verif.Proofs.Races
import Verif.Props.Dropout
import Verif.Props.Dense

/-!
# C90: predictions from several threads
-/

namespace SmartDNN
open Spec

section
variable {ρ T : Type}

/-- Replace layer `p` of model `m`. -/
def setLayer (layers : Nat → Nat → Option (Layer T)) (m p : Nat) (l : Layer T) : Nat → Nat → Option (Layer T) :=
  fun m' p' => if m' = m ∧ p' = p then some l else layers m' p'

theorem setLayer_self (layers : Nat → Nat → Option (Layer T)) (m p : Nat) (l : Layer T) :
    setLayer layers m p l m p = some l := by simp [setLayer]

theorem setLayer_setLayer (layers : Nat → Nat → Option (Layer T)) (m p : Nat) (l l' : Layer T) :
    setLayer (setLayer layers m p l) m p l' = setLayer layers m p l' := by
  funext m' p'
  unfold setLayer
  split <;> rfl

variable {layers : Nat → Nat → Option (Layer T)} {m p : Nat} {l : Layer T} {r : ρ} {outs : Nat → List (Option (Tensor T))}

theorem write_member_run (h : layers m p = some l) {f : Member} {v old : PCell ρ T} (hv : l.member f = some old)
    (l' : Layer T) (h' : ∀ f', l'.member f' = if f' = f then some v else l.member f') (q : Prog PLoc (PCell ρ T)) :
    (Prog.write (.member m p f) v q).run (modelsMem layers r outs) = q.run (modelsMem (setLayer layers m p l') r outs) := by
  have e : modelsMem layers r outs (.member m p f) = some old := by
    show (layers m p).bind _ = _
    rw [h]
    exact hv
  simp only [Prog.run, e]
  congr 1
  funext loc
  unfold Mem.put
  cases loc with
  | engine => simp [modelsMem]
  | out a b => simp [modelsMem]
  | member a b g =>
    by_cases hab : a = m ∧ b = p
    · obtain ⟨rfl, rfl⟩ := hab
      simp only [modelsMem, setLayer_self, Option.bind_some, h' g, PLoc.member.injEq, true_and]
      split
      · rfl
      · rw [h]; rfl
    · have hne : ¬ (PLoc.member a b g = PLoc.member m p f) := by
        intro e
        simp only [PLoc.member.injEq] at e
        exact hab ⟨e.1, e.2.1⟩
      rw [if_neg hne]
      simp only [modelsMem, setLayer, if_neg hab]

theorem readTensor_run (h : layers m p = some l) {f : Member} {t : Tensor T}
    (hv : l.member (ρ := ρ) f = some (.tensor (some t))) (k : Tensor T → Prog PLoc (PCell ρ T)) :
    (readTensor (.member m p f) k).run (modelsMem layers r outs) = (k t).run (modelsMem layers r outs) := by
  have e : modelsMem layers r outs (.member m p f) = some (.tensor (some t)) := by
    show (layers m p).bind _ = _
    rw [h]
    exact hv
  simp only [readTensor, Prog.run, e]

theorem readShape_run (h : layers m p = some l) {f : Member} {t : Shape}
    (hv : l.member (ρ := ρ) f = some (.shape (some t))) (k : Shape → Prog PLoc (PCell ρ T)) :
    (readShape (.member m p f) k).run (modelsMem layers r outs) = (k t).run (modelsMem layers r outs) := by
  have e : modelsMem layers r outs (.member m p f) = some (.shape (some t)) := by
    show (layers m p).bind _ = _
    rw [h]
    exact hv
  simp only [readShape, Prog.run, e]

theorem write_engine_run (r' : ρ) (q : Prog PLoc (PCell ρ T)) :
    (Prog.write .engine (.state r') q).run (modelsMem layers r outs) = q.run (modelsMem layers r' outs) := by
  simp only [Prog.run, modelsMem]
  congr 1
  funext loc
  unfold Mem.put
  cases loc <;> simp [modelsMem]

variable [Zero T] [One T] [Add T] [Sub T] [Mul T] [Div T] [Neg T] [NatCast T] [IntCast T]
  [LT T] [DecidableLT T] [LE T] [DecidableLE T] [DecidableEq T] [MathFn T]

theorem conv_run (h : layers m p = some l) {f f' : Conv T} (hl : l.kind = .conv f) {x y : Tensor T}
    (hf : Conv.forward x f = (.ok y, f')) (k : Tensor T → Prog PLoc (PCell ρ T)) :
    (f.forwardProg (.member m p) x k).run (modelsMem layers r outs) =
      (k y).run (modelsMem (setLayer layers m p { l with kind := .conv f' }) r outs) := by
  obtain ⟨kind, mode⟩ := l
  simp only at hl
  subst hl
  unfold Conv.forward at hf
  unfold Conv.forwardProg
  rw [Mut.get_bind] at hf
  by_cases hr : x.shape.rank ≠ 4
  · rw [if_pos hr] at hf
    simp [Mut.lift] at hf
  · rw [if_neg hr] at hf ⊢
    cases hc : x.shape.get 1 with
    | error e => rw [hc, Mut.lift_error_bind] at hf; simp at hf
    | ok c =>
      rw [hc, Mut.lift_ok_bind] at hf
      by_cases hcc : c ≠ f.inputChannels
      · rw [if_pos hcc] at hf
        simp [Mut.lift] at hf
      · rw [if_neg hcc, Mut.modify_bind] at hf
        simp only [Mut.lift, Prod.mk.injEq] at hf
        obtain ⟨h1, rfl⟩ := hf
        simp only [orFail, if_neg hcc]
        rw [write_member_run h rfl ⟨.conv { f with input := some x }, mode⟩ (by intro f'; cases f' <;> rfl), h1]

theorem flatten_run (h : layers m p = some l) {f f' : Flatten} (hl : l.kind = .flatten f) {x y : Tensor T}
    (hf : Flatten.forward x f = (.ok y, f')) (k : Tensor T → Prog PLoc (PCell ρ T)) :
    (Flatten.forwardProg (.member m p) x k).run (modelsMem layers r outs) =
      (k y).run (modelsMem (setLayer layers m p { l with kind := .flatten f' }) r outs) := by
  obtain ⟨kind, mode⟩ := l
  simp only at hl
  subst hl
  unfold Flatten.forward at hf
  unfold Flatten.forwardProg
  by_cases hr : x.shape.rank < 2
  · rw [if_pos hr] at hf
    simp [Mut.lift] at hf
  · rw [if_neg hr] at hf ⊢
    by_cases hr2 : x.shape.rank = 2
    · rw [if_pos hr2] at hf
      change (Except.ok x, f) = (Except.ok y, f') at hf
      simp only [Prod.mk.injEq, Except.ok.injEq] at hf
      obtain ⟨rfl, rfl⟩ := hf
      rw [if_pos hr2]
      congr 2
      funext m' p'
      unfold setLayer
      split
      · rename_i e
        rw [e.1, e.2, h]
      · rfl
    · rw [if_neg hr2, Mut.modify_bind] at hf
      rw [if_neg hr2, write_member_run h rfl ⟨.flatten { f with originalShape := some x.shape }, mode⟩ (by intro f'; cases f' <;> rfl),
        readShape_run (setLayer_self _ _ _ _) rfl]
      cases hb : x.shape.get 0 with
      | error e => rw [hb, Mut.lift_error_bind] at hf; simp at hf
      | ok b =>
        rw [hb, Mut.lift_ok_bind] at hf
        simp only [Mut.lift, Prod.mk.injEq] at hf
        obtain ⟨h1, rfl⟩ := hf
        simp only [orFail]
        rw [readShape_run (setLayer_self _ _ _ _) rfl, h1]

theorem dropout_run (E : Engine ρ T) (h : layers m p = some l) {f f' : Dropout T} (hl : l.kind = .dropout f) {x y : Tensor T} {r' : ρ}
    (hf : Dropout.forward E l.trainingMode x (f, r) = (.ok y, f', r')) (k : Tensor T → Prog PLoc (PCell ρ T)) :
    (f.forwardProg E (.member m p) l.trainingMode x k).run (modelsMem layers r outs) =
      (k y).run (modelsMem (setLayer layers m p { l with kind := .dropout f' }) r' outs) := by
  obtain ⟨kind, mode⟩ := l
  simp only at hl hf ⊢
  subst hl
  unfold Dropout.forward at hf
  unfold Dropout.forwardProg
  cases mode with
  | false =>
    simp only [Bool.false_eq_true, if_false] at hf ⊢
    change (Except.ok x, f, r) = (Except.ok y, f', r') at hf
    simp only [Prod.mk.injEq, Except.ok.injEq] at hf
    obtain ⟨rfl, rfl, rfl⟩ := hf
    congr 2
    funext m' p'
    unfold setLayer
    split
    · rename_i e
      rw [e.1, e.2, h]
    · rfl
  | true =>
    simp only [if_true] at hf ⊢
    rw [Mut.get_bind] at hf
    have he : ∀ q : PCell ρ T → Prog PLoc (PCell ρ T), (Prog.read .engine q).run (modelsMem layers r outs) =
        (q (.state r)).run (modelsMem layers r outs) := fun q => rfl
    rw [he]
    simp only
    cases h1 : Tensor.rand E x.shape r with
    | error e => rw [h1, Mut.lift_error_bind] at hf; simp at hf
    | ok mr =>
      rw [h1, Mut.lift_ok_bind, Mut.set_bind] at hf
      cases h2 : mr.1.apply (fun x => if f.dropoutRate < x then (1 : T) else 0) with
      | error e => rw [h2, Mut.lift_error_bind] at hf; simp at hf
      | ok mask =>
        rw [h2, Mut.lift_ok_bind, Mut.modify_bind] at hf
        cases h3 : x.mul mask with
        | error e => rw [h3, Mut.lift_error_bind] at hf; simp at hf
        | ok masked =>
          rw [h3, Mut.lift_ok_bind] at hf
          simp only [Mut.lift, Prod.mk.injEq] at hf
          obtain ⟨h4, rfl, rfl⟩ := hf
          simp only [orFail]
          rw [write_engine_run, write_member_run h rfl ⟨.dropout { f with mask := some mr.1 }, true⟩ (by intro f'; cases f' <;> rfl),
            readTensor_run (setLayer_self _ _ _ _) rfl, h2]
          simp only
          rw [write_member_run (setLayer_self _ _ _ _) rfl ⟨.dropout { f with mask := some mask }, true⟩ (by intro f'; cases f' <;> rfl),
            readTensor_run (setLayer_self _ _ _ _) rfl, h3, setLayer_setLayer]
          simp only
          rw [h4]

theorem batchNorm_run (h : layers m p = some l) {f f' : BatchNorm T} (hl : l.kind = .batchNorm f) {x y : Tensor T}
    (hf : BatchNorm.forward l.trainingMode x f = (.ok y, f')) (k : Tensor T → Prog PLoc (PCell ρ T)) :
    (f.forwardProg (.member m p) l.trainingMode x k).run (modelsMem layers r outs) =
      (k y).run (modelsMem (setLayer layers m p { l with kind := .batchNorm f' }) r outs) := by
  obtain ⟨kind, mode⟩ := l
  simp only at hl hf ⊢
  subst hl
  unfold BatchNorm.forward at hf
  unfold BatchNorm.forwardProg
  by_cases hr : x.shape.rank ≠ 2 ∧ x.shape.rank ≠ 4
  · rw [if_pos hr] at hf
    simp [Mut.lift] at hf
  rw [if_neg hr] at hf ⊢
  cases mode with
  | false =>
    simp only [Bool.false_eq_true, if_false] at hf ⊢
    rw [Mut.get_bind] at hf
    cases h1 : BatchNorm.reshapeForBroadcast f.runningMean x.shape with
    | error e => rw [h1, Mut.lift_error_bind] at hf; simp at hf
    | ok rm =>
    cases h2 : BatchNorm.reshapeForBroadcast f.runningVariance x.shape with
    | error e => rw [h1, Mut.lift_ok_bind, h2, Mut.lift_error_bind] at hf; simp at hf
    | ok rv =>
    cases h3 : BatchNorm.reshapeForBroadcast f.gamma x.shape with
    | error e => rw [h1, Mut.lift_ok_bind, h2, Mut.lift_ok_bind, h3, Mut.lift_error_bind] at hf; simp at hf
    | ok rg =>
    cases h4 : BatchNorm.reshapeForBroadcast f.beta x.shape with
    | error e => rw [h1, Mut.lift_ok_bind, h2, Mut.lift_ok_bind, h3, Mut.lift_ok_bind, h4, Mut.lift_error_bind] at hf; simp at hf
    | ok rb =>
    rw [h1, Mut.lift_ok_bind, h2, Mut.lift_ok_bind, h3, Mut.lift_ok_bind, h4, Mut.lift_ok_bind] at hf
    cases h5 : BatchNorm.normalise x rm rv f.epsilon with
    | error e => rw [h5, Mut.lift_error_bind] at hf; simp at hf
    | ok ni =>
    rw [h5, Mut.lift_ok_bind] at hf
    simp only [Mut.lift, Prod.mk.injEq] at hf
    obtain ⟨h6, rfl⟩ := hf
    rw [readTensor_run h rfl, h1]
    simp only [orFail]
    rw [readTensor_run h rfl, h2]
    simp only
    rw [h5]
    simp only
    rw [h6]
    congr 2
    funext m' p'
    unfold setLayer
    split
    · rename_i e
      rw [e.1, e.2, h]
    · rfl
  | true =>
    simp only [if_true] at hf ⊢
    rw [Mut.get_bind] at hf
    cases h1 : x.meanAxes (BatchNorm.axes x.shape) with
    | error e => rw [h1, Mut.lift_error_bind] at hf; simp at hf
    | ok bm =>
    rw [h1, Mut.lift_ok_bind, Mut.modify_bind] at hf
    cases h2 : x.varianceAxes bm (BatchNorm.axes x.shape) with
    | error e => rw [h2, Mut.lift_error_bind] at hf; simp at hf
    | ok bv =>
    rw [h2, Mut.lift_ok_bind, Mut.modify_bind] at hf
    cases h3 : BatchNorm.reshapeForBroadcast bm x.shape with
    | error e => rw [h3, Mut.lift_error_bind] at hf; simp at hf
    | ok rm =>
    rw [h3, Mut.lift_ok_bind] at hf
    cases h4 : BatchNorm.reshapeForBroadcast bv x.shape with
    | error e => rw [h4, Mut.lift_error_bind] at hf; simp at hf
    | ok rv =>
    rw [h4, Mut.lift_ok_bind] at hf
    cases h5 : BatchNorm.reshapeForBroadcast f.gamma x.shape with
    | error e => rw [h5, Mut.lift_error_bind] at hf; simp at hf
    | ok rg =>
    rw [h5, Mut.lift_ok_bind] at hf
    cases h6 : BatchNorm.reshapeForBroadcast f.beta x.shape with
    | error e => rw [h6, Mut.lift_error_bind] at hf; simp at hf
    | ok rb =>
    rw [h6, Mut.lift_ok_bind] at hf
    cases h7 : BatchNorm.normalise x rm rv f.epsilon with
    | error e => rw [h7, Mut.lift_error_bind] at hf; simp at hf
    | ok ni =>
    rw [h7, Mut.lift_ok_bind, Mut.modify_bind] at hf
    cases h8 : BatchNorm.scaleShift ni rg rb with
    | error e => rw [h8, Mut.lift_error_bind] at hf; simp at hf
    | ok out =>
    rw [h8, Mut.lift_ok_bind] at hf
    cases h9 : BatchNorm.blend f.momentum f.runningMean bm with
    | error e => rw [h9, Mut.lift_error_bind] at hf; simp at hf
    | ok nm =>
    rw [h9, Mut.lift_ok_bind, Mut.modify_bind] at hf
    cases h10 : BatchNorm.blend f.momentum f.runningVariance bv with
    | error e => rw [h10, Mut.lift_error_bind] at hf; simp at hf
    | ok nv =>
    rw [h10, Mut.lift_ok_bind, Mut.modify_bind] at hf
    change (Except.ok out, _) = (Except.ok y, f') at hf
    simp only [Prod.mk.injEq, Except.ok.injEq] at hf
    obtain ⟨rfl, rfl⟩ := hf
    simp only [orFail]
    rw [write_member_run h rfl ⟨.batchNorm { f with batchMean := some bm }, true⟩ (by intro f'; cases f' <;> rfl),
      readTensor_run (setLayer_self _ _ _ _) rfl, h2]
    simp only
    rw [write_member_run (setLayer_self _ _ _ _) rfl ⟨.batchNorm { f with batchMean := some bm, batchVariance := some bv }, true⟩ (by intro f'; cases f' <;> rfl),
      setLayer_setLayer, readTensor_run (setLayer_self _ _ _ _) rfl, h3]
    simp only
    rw [readTensor_run (setLayer_self _ _ _ _) rfl, h4]
    simp only
    rw [h7]
    simp only
    rw [write_member_run (setLayer_self _ _ _ _) rfl ⟨.batchNorm { f with batchMean := some bm, batchVariance := some bv, normalizedInput := some ni }, true⟩ (by intro f'; cases f' <;> rfl),
      setLayer_setLayer, readTensor_run (setLayer_self _ _ _ _) rfl, h8]
    simp only
    rw [readTensor_run (setLayer_self _ _ _ _) rfl, readTensor_run (setLayer_self _ _ _ _) rfl, h9]
    simp only
    rw [write_member_run (setLayer_self _ _ _ _) rfl ⟨.batchNorm { f with batchMean := some bm, batchVariance := some bv, normalizedInput := some ni, runningMean := nm }, true⟩ (by intro f'; cases f' <;> rfl),
      setLayer_setLayer, readTensor_run (setLayer_self _ _ _ _) rfl, readTensor_run (setLayer_self _ _ _ _) rfl, h10]
    simp only
    rw [write_member_run (setLayer_self _ _ _ _) rfl ⟨.batchNorm { f with batchMean := some bm, batchVariance := some bv, normalizedInput := some ni, runningMean := nm, runningVariance := nv }, true⟩ (by intro f'; cases f' <;> rfl),
      setLayer_setLayer]

/-- Run without interference, the accesses of `forward` do what `forward` does. -/
theorem layer_run (E : Engine ρ T) (h : layers m p = some l) {x y : Tensor T} {l' : Layer T} {r' : ρ}
    (hf : Layer.forward E x (l, r) = (.ok y, l', r')) (k : Tensor T → Prog PLoc (PCell ρ T)) :
    (l.forwardProg E (.member m p) x k).run (modelsMem layers r outs) =
      (k y).run (modelsMem (setLayer layers m p l') r' outs) := by
  unfold Layer.forwardProg
  cases hl : l.kind with
  | fc f =>
    have e : Layer.forward E x (l, r) = (FC.affine f.weights f.biases x, { l with kind := .fc { f with input := some x } }, r) := by
      simp only [Layer.forward, hl]
      rfl
    rw [e] at hf
    simp only [Prod.mk.injEq] at hf
    obtain ⟨h1, rfl, rfl⟩ := hf
    simp only
    unfold FC.forwardProg
    rw [write_member_run h (by unfold Layer.member; rw [hl]) { l with kind := .fc { f with input := some x } }
      (by intro f'; unfold Layer.member; rw [hl]; cases f' <;> rfl), h1]
    rfl
  | activation f =>
    have e : Layer.forward E x (l, r) = (f.activation.forward x, { l with kind := .activation { f with input := some x } }, r) := by
      simp only [Layer.forward, hl]
      rfl
    rw [e] at hf
    simp only [Prod.mk.injEq] at hf
    obtain ⟨h1, rfl, rfl⟩ := hf
    simp only
    unfold ActLayer.forwardProg
    rw [write_member_run h (by unfold Layer.member; rw [hl]) { l with kind := .activation { f with input := some x } }
      (by intro f'; unfold Layer.member; rw [hl]; cases f' <;> rfl), h1]
    rfl
  | maxPool f =>
    simp only
    unfold MaxPool.forwardProg
    by_cases hr : x.shape.rank ≠ 4
    · have e : Layer.forward E x (l, r) = (.error .runtimeError, { l with kind := .maxPool f }, r) := by
        simp only [Layer.forward, hl, Layer.onKind, MaxPool.forward, if_pos hr]
        rfl
      rw [e] at hf
      simp at hf
    · have e : Layer.forward E x (l, r) =
          (f.pool x, { l with kind := .maxPool { f with input := some x } }, r) := by
        simp only [Layer.forward, hl, Layer.onKind, MaxPool.forward, if_neg hr]
        rfl
      rw [e] at hf
      simp only [Prod.mk.injEq] at hf
      obtain ⟨h1, rfl, rfl⟩ := hf
      rw [if_neg hr, write_member_run h (by unfold Layer.member; rw [hl]) { l with kind := .maxPool { f with input := some x } }
        (by intro f'; unfold Layer.member; rw [hl]; cases f' <;> rfl), h1]
      rfl
  | conv f =>
    simp only [Layer.forward, hl, Layer.onKind, Prod.mk.injEq] at hf
    obtain ⟨h1, rfl, rfl⟩ := hf
    exact conv_run h hl (Prod.ext h1 rfl) k
  | flatten f =>
    simp only [Layer.forward, hl, Layer.onKind, Prod.mk.injEq] at hf
    obtain ⟨h1, rfl, rfl⟩ := hf
    exact flatten_run h hl (Prod.ext h1 rfl) k
  | dropout f =>
    simp only [Layer.forward, hl, Layer.onKind, Prod.mk.injEq] at hf
    obtain ⟨h1, rfl, rfl⟩ := hf
    exact dropout_run E h hl (Prod.ext h1 rfl) k
  | batchNorm f =>
    simp only [Layer.forward, hl, Layer.onKind, Prod.mk.injEq] at hf
    obtain ⟨h1, rfl, rfl⟩ := hf
    exact batchNorm_run h hl (Prod.ext h1 rfl) k

theorem layers_run (E : Engine ρ T) (k : Tensor T → Prog PLoc (PCell ρ T)) :
    ∀ (ls : List (Layer T)) (p : Nat) (layers : Nat → Nat → Option (Layer T)) (r : ρ) (x y : Tensor T) (ls' : List (Layer T)) (r' : ρ),
      (∀ q, layers m (p + q) = ls[q]?) → Net.forwardLayers E ls x r = (.ok y, ls', r') →
      ∃ layers', (layersProg E m p ls x k).run (modelsMem layers r outs) = (k y).run (modelsMem layers' r' outs) ∧
        (∀ q, layers' m (p + q) = ls'[q]?) ∧ (∀ m', m' ≠ m → layers' m' = layers m') ∧ (∀ q, q < p → layers' m q = layers m q)
  | [], p, layers, r, x, y, ls', r', hl, hf => by
    simp only [Net.forwardLayers, Prod.mk.injEq, Except.ok.injEq] at hf
    obtain ⟨rfl, rfl, rfl⟩ := hf
    exact ⟨layers, rfl, hl, fun _ _ => rfl, fun _ _ => rfl⟩
  | l :: ls, p, layers, r, x, y, ls', r', hl, hf => by
    unfold Net.forwardLayers at hf
    rcases h1 : Layer.forward E x (l, r) with ⟨res, l', r1⟩
    rw [h1] at hf
    cases res with
    | error e => simp at hf
    | ok z =>
      rcases h2 : Net.forwardLayers E ls z r1 with ⟨res, ls1, r2⟩
      simp only [h2, Prod.mk.injEq] at hf
      obtain ⟨rfl, rfl, rfl⟩ := hf
      have hp : layers m p = some l := by simpa using hl 0
      obtain ⟨L, g1, g2, g3, g4⟩ := layers_run E k ls (p + 1) (setLayer layers m p l') r1 z y ls1 r2 (by
        intro q
        have := hl (q + 1)
        rw [List.getElem?_cons_succ] at this
        rw [← this, show p + 1 + q = p + (q + 1) by omega]
        simp [setLayer]) h2
      refine ⟨L, ?_, ?_, ?_, ?_⟩
      · show (l.forwardProg E (.member m p) x _).run _ = _
        rw [layer_run E hp h1]
        exact g1
      · intro q
        cases q with
        | zero =>
          have := g4 p (by omega)
          simpa [setLayer_self] using this
        | succ q =>
          have := g2 q
          rw [List.getElem?_cons_succ, ← this]
          congr 1
          omega
      · intro m' hm'
        rw [g3 m' hm']
        funext q
        simp [setLayer, hm']
      · intro q hq
        rw [g4 q (by omega)]
        simp only [setLayer]
        rw [if_neg (by omega)]

omit [Zero T] [One T] [Add T] [Sub T] [Mul T] [Div T] [Neg T] [NatCast T] [IntCast T] [LT T] [DecidableLT T] [LE T]
  [DecidableLE T] [DecidableEq T] [MathFn T] in
theorem write_out_run (j : Nat) (y : Tensor T) (hj : j < (outs m).length) (q : Prog PLoc (PCell ρ T)) :
    (Prog.write (.out m j) (.tensor (some y)) q).run (modelsMem layers r outs) =
      q.run (modelsMem layers r (Function.update outs m ((outs m).set j (some y)))) := by
  have e : modelsMem layers r outs (.out m j) = some (.tensor (outs m)[j]) := by
    simp [modelsMem, List.getElem?_eq_getElem hj]
  simp only [Prog.run, e]
  congr 1
  funext loc
  unfold Mem.put
  cases loc with
  | engine => simp [modelsMem]
  | member a b f => simp [modelsMem]
  | out a b =>
    simp only [PLoc.out.injEq, modelsMem]
    by_cases ha : a = m
    · subst ha
      rw [Function.update_self]
      by_cases hb : b = j
      · subst hb
        simp [hj]
      · rw [if_neg (by simp [hb]), List.getElem?_set_ne (Ne.symm hb)]
    · rw [Function.update_of_ne ha, if_neg (by simp [ha])]

/-! #### `forward` keeps what the accesses depend on -/

/-- The action leaves `g` of the object as it is. -/
def KeepsPart {σ α β : Type} (g : σ → β) (a : Mut σ α) : Prop := ∀ s, g (a s).2 = g s

theorem keepsPart_bind {σ α α' β : Type} {g : σ → β} {a : Mut σ α} {f : α → Mut σ α'} (h1 : KeepsPart g a) (h2 : ∀ x, KeepsPart g (f x)) :
    KeepsPart g (a >>= f) := by
  intro s
  rw [Mut.bind_apply]
  have := h1 s
  rcases h : a s with ⟨res, s'⟩
  rw [h] at this
  cases res with
  | error e => exact this
  | ok x => exact (h2 x s').trans this

theorem keepsPart_lift {σ α β : Type} {g : σ → β} (r : Res α) : KeepsPart g (Mut.lift r : Mut σ α) := fun _ => rfl
theorem keepsPart_get {σ β : Type} {g : σ → β} : KeepsPart g (Mut.get : Mut σ σ) := fun _ => rfl
theorem keepsPart_pure {σ α β : Type} {g : σ → β} (a : α) : KeepsPart g (pure a : Mut σ α) := fun _ => rfl
theorem keepsPart_modify {σ β : Type} {g : σ → β} {f : σ → σ} (h : ∀ s, g (f s) = g s) : KeepsPart g (Mut.modify f) := h

theorem conv_keeps (x : Tensor T) : KeepsPart (fun f : Conv T => { f with input := none }) (Conv.forward x) := by
  unfold Conv.forward
  refine keepsPart_bind keepsPart_get fun l => ?_
  split
  · exact keepsPart_lift _
  · refine keepsPart_bind (keepsPart_lift _) fun c => ?_
    split
    · exact keepsPart_lift _
    · exact keepsPart_bind (keepsPart_modify fun _ => rfl) fun _ => keepsPart_lift _

theorem pool_keeps (x : Tensor T) : KeepsPart (fun f : MaxPool T => { f with input := none }) (MaxPool.forward x) := by
  unfold MaxPool.forward
  split
  · exact keepsPart_lift _
  · exact keepsPart_bind (keepsPart_modify fun _ => rfl) fun _ => keepsPart_bind keepsPart_get fun _ => keepsPart_lift _

theorem dropout_keeps (E : Engine ρ T) (training : Bool) (x : Tensor T) :
    KeepsPart (fun s : Dropout T × ρ => s.1.dropoutRate) (Dropout.forward E training x) := by
  unfold Dropout.forward
  split
  · intro s
    rw [Mut.get_bind]
    cases h1 : Tensor.rand E x.shape s.2 with
    | error e => rfl
    | ok mr =>
      rw [Mut.lift_ok_bind, Mut.set_bind]
      have : KeepsPart (fun s : Dropout T × ρ => s.1.dropoutRate)
          (do
            let mask ← Mut.lift (mr.1.apply (fun x => if s.1.dropoutRate < x then (1 : T) else 0))
            Mut.modify (fun s : Dropout T × ρ => ({ s.1 with mask := some mask }, s.2))
            let masked ← Mut.lift (x.mul mask)
            Mut.lift (masked.mulScalar (1 / (1 - s.1.dropoutRate)))) :=
        keepsPart_bind (keepsPart_lift _) fun _ => keepsPart_bind (keepsPart_modify fun _ => rfl) fun _ =>
          keepsPart_bind (keepsPart_lift _) fun _ => keepsPart_lift _
      exact this _
  · exact keepsPart_pure _

theorem batchNorm_keeps (training : Bool) (x : Tensor T) :
    KeepsPart (fun f : BatchNorm T => (f.epsilon, f.momentum, f.gamma, f.beta)) (BatchNorm.forward training x) := by
  unfold BatchNorm.forward
  dsimp only
  split
  · exact keepsPart_lift _
  · split
    · exact keepsPart_bind keepsPart_get fun _ => keepsPart_bind (keepsPart_lift _) fun _ => keepsPart_bind (keepsPart_modify fun _ => rfl) fun _ =>
        keepsPart_bind (keepsPart_lift _) fun _ => keepsPart_bind (keepsPart_modify fun _ => rfl) fun _ => keepsPart_bind (keepsPart_lift _) fun _ =>
        keepsPart_bind (keepsPart_lift _) fun _ => keepsPart_bind (keepsPart_lift _) fun _ => keepsPart_bind (keepsPart_lift _) fun _ =>
        keepsPart_bind (keepsPart_lift _) fun _ => keepsPart_bind (keepsPart_modify fun _ => rfl) fun _ => keepsPart_bind (keepsPart_lift _) fun _ =>
        keepsPart_bind (keepsPart_lift _) fun _ => keepsPart_bind (keepsPart_modify fun _ => rfl) fun _ => keepsPart_bind (keepsPart_lift _) fun _ =>
        keepsPart_bind (keepsPart_modify fun _ => rfl) fun _ => keepsPart_pure _
    · exact keepsPart_bind keepsPart_get fun _ => keepsPart_bind (keepsPart_lift _) fun _ => keepsPart_bind (keepsPart_lift _) fun _ =>
        keepsPart_bind (keepsPart_lift _) fun _ => keepsPart_bind (keepsPart_lift _) fun _ => keepsPart_bind (keepsPart_lift _) fun _ => keepsPart_lift _

/-- A layer makes the same accesses after a call of `forward` as before. -/
theorem forwardProg_static (E : Engine ρ T) (l : Layer T) (x : Tensor T) (r : ρ) (at_ : Member → PLoc) (z : Tensor T)
    (k : Tensor T → Prog PLoc (PCell ρ T)) :
    (Layer.forward E x (l, r)).2.1.forwardProg E at_ z k = l.forwardProg E at_ z k := by
  obtain ⟨kind, mode⟩ := l
  cases kind with
  | fc f => rfl
  | activation f => rfl
  | flatten f => rfl
  | conv f =>
    have h := conv_keeps x f
    show Conv.forwardProg at_ (Conv.forward x f).2 z k = Conv.forwardProg at_ f z k
    show Conv.forwardProg at_ { (Conv.forward x f).2 with input := none } z k = Conv.forwardProg at_ { f with input := none } z k
    exact congrArg (fun c => Conv.forwardProg at_ c z k) h
  | maxPool f =>
    have h := pool_keeps x f
    show MaxPool.forwardProg at_ { (MaxPool.forward x f).2 with input := none } z k = MaxPool.forwardProg at_ { f with input := none } z k
    exact congrArg (fun c => MaxPool.forwardProg at_ c z k) h
  | dropout f =>
    have h := dropout_keeps E mode x (f, r)
    show Dropout.forwardProg E at_ (Dropout.forward E mode x (f, r)).2.1 mode z k = Dropout.forwardProg E at_ f mode z k
    unfold Dropout.forwardProg
    simp only at h
    rw [h]
  | batchNorm f =>
    have h := batchNorm_keeps mode x f
    simp only [Prod.mk.injEq] at h
    show BatchNorm.forwardProg at_ (BatchNorm.forward mode x f).2 mode z k = BatchNorm.forwardProg at_ f mode z k
    unfold BatchNorm.forwardProg
    rw [h.1, h.2.1, h.2.2.1, h.2.2.2]

theorem layersProg_static (E : Engine ρ T) (m : Nat) : ∀ (ls : List (Layer T)) (p : Nat) (x : Tensor T) (r : ρ) (z : Tensor T)
    (k : Tensor T → Prog PLoc (PCell ρ T)),
    layersProg E m p (Net.forwardLayers E ls x r).2.1 z k = layersProg E m p ls z k
  | [], p, x, r, z, k => rfl
  | l :: ls, p, x, r, z, k => by
    unfold Net.forwardLayers
    have hs := forwardProg_static E l x r
    rcases h1 : Layer.forward E x (l, r) with ⟨res, l', r1⟩
    rw [h1] at hs
    cases res with
    | error e =>
      show l'.forwardProg E _ z _ = l.forwardProg E _ z _
      exact hs _ _ _
    | ok y =>
      show l'.forwardProg E _ z (fun y' => layersProg E m (p + 1) (Net.forwardLayers E ls y r1).2.1 y' k) = l.forwardProg E _ z _
      rw [hs]
      congr 1
      funext y'
      exact layersProg_static E m ls (p + 1) y r1 y' k

theorem predictions_run (E : Engine ρ T) (ls0 : List (Layer T)) : ∀ (xs : List (Tensor T)) (j : Nat)
    (layers : Nat → Nat → Option (Layer T)) (outs : Nat → List (Option (Tensor T))) (net net' : Net ρ T) (ys : List (Tensor T)),
    (∀ z k, layersProg E m 0 net.layers z k = layersProg E m 0 ls0 z k) →
    (∀ q, layers m q = net.layers[q]?) → (outs m).length = j + xs.length →
    Net.predictAll E xs net = (.ok ys, net') →
    ∃ layers' outs', (predictionsProg E m ls0 j xs).run (modelsMem layers net.rng outs) = .ok (modelsMem layers' net'.rng outs') ∧
      (∀ q, layers' m q = net'.layers[q]?) ∧ outs' m = (outs m).take j ++ ys.map some
  | [], j, layers, outs, net, net', ys, hs, hl, ho, hf => by
    change (Except.ok [], net) = (Except.ok ys, net') at hf
    simp only [Prod.mk.injEq, Except.ok.injEq] at hf
    obtain ⟨rfl, rfl⟩ := hf
    refine ⟨layers, outs, rfl, hl, ?_⟩
    rw [List.take_of_length_le (by simp at ho; omega)]
    simp
  | x :: xs, j, layers, outs, net, net', ys, hs, hl, ho, hf => by
    unfold Net.predictAll at hf
    rw [Mut.bind_apply] at hf
    unfold Net.predict at hf
    rcases h1 : Net.forwardLayers E net.layers x net.rng with ⟨res, ls1, r1⟩
    simp only [h1] at hf
    cases res with
    | error e => simp at hf
    | ok y =>
      simp only at hf
      rw [Mut.bind_apply] at hf
      rcases h2 : Net.predictAll E xs { net with layers := ls1, rng := r1 } with ⟨res, net2⟩
      rw [h2] at hf
      cases res with
      | error e => simp at hf
      | ok ys1 =>
        change (Except.ok (y :: ys1), net2) = (Except.ok ys, net') at hf
        simp only [Prod.mk.injEq, Except.ok.injEq] at hf
        obtain ⟨rfl, rfl⟩ := hf
        have hs1 : ∀ z k, layersProg E m 0 ls1 z k = layersProg E m 0 ls0 z k := by
          intro z k
          have := layersProg_static E m net.layers 0 x net.rng z k
          rw [h1] at this
          rw [← hs z k]
          exact this
        obtain ⟨L, g1, g2, -, -⟩ := layers_run (m := m) (outs := outs) E
          (fun y => .write (.out m j) (.tensor (some y)) (predictionsProg E m ls0 (j + 1) xs))
          net.layers 0 layers net.rng x y ls1 r1 (by simpa using hl) h1
        have hj : j < (outs m).length := by rw [ho]; simp
        obtain ⟨L', O', g3, g4, g5⟩ := predictions_run E ls0 xs (j + 1) L (Function.update outs m ((outs m).set j (some y)))
          { net with layers := ls1, rng := r1 } net2 ys1 hs1 (by simpa using g2)
          (by rw [Function.update_self, List.length_set, ho, List.length_cons]; omega) h2
        refine ⟨L', O', ?_, g4, ?_⟩
        · show (layersProg E m 0 ls0 x _).run _ = _
          rw [← hs, g1, write_out_run j y hj]
          exact g3
        · rw [g5, Function.update_self, List.take_succ]
          simp only [List.take_set, List.getElem?_set_self hj, Option.toList_some, List.map_cons]
          rw [List.set_eq_of_length_le (by simp)]
          simp

/-! #### Which places a thread accesses -/

/-- The places that belong to model number `m`. -/
def OfModel (m : Nat) : PLoc → Prop
  | .member a _ _ => a = m
  | .out a _ => a = m
  | .engine => False

/-- The layer draws random numbers in `forward`: dropout in training mode. -/
def Spec.Draws (l : Layer T) : Prop := (∃ f, l.kind = .dropout f) ∧ l.trainingMode = true

omit [Zero T] [One T] [Add T] [Sub T] [Mul T] [Div T] [Neg T] [NatCast T] [IntCast T] [LT T] [DecidableLT T] [LE T]
  [DecidableLE T] [DecidableEq T] [MathFn T] in
theorem orFail_within {α : Type} {A W : PLoc → Prop} {res : Res α} {k : α → Prog PLoc (PCell ρ T)}
    (h : ∀ a, (k a).Within A W) : (orFail res k).Within A W := by
  cases res with
  | error e => trivial
  | ok a => exact h a

omit [Zero T] [One T] [Add T] [Sub T] [Mul T] [Div T] [Neg T] [NatCast T] [IntCast T] [LT T] [DecidableLT T] [LE T]
  [DecidableLE T] [DecidableEq T] [MathFn T] in
theorem readTensor_within {A W : PLoc → Prop} {loc : PLoc} {k : Tensor T → Prog PLoc (PCell ρ T)} (ha : A loc)
    (h : ∀ a, (k a).Within A W) : (readTensor loc k).Within A W := by
  refine ⟨ha, fun v => ?_⟩
  cases v with
  | tensor t =>
    cases t with
    | none => trivial
    | some t => exact h t
  | shape t => trivial
  | state t => trivial

omit [Zero T] [One T] [Add T] [Sub T] [Mul T] [Div T] [Neg T] [NatCast T] [IntCast T] [LT T] [DecidableLT T] [LE T]
  [DecidableLE T] [DecidableEq T] [MathFn T] in
theorem readShape_within {A W : PLoc → Prop} {loc : PLoc} {k : Shape → Prog PLoc (PCell ρ T)} (ha : A loc)
    (h : ∀ a, (k a).Within A W) : (readShape loc k).Within A W := by
  refine ⟨ha, fun v => ?_⟩
  cases v with
  | shape t =>
    cases t with
    | none => trivial
    | some t => exact h t
  | tensor t => trivial
  | state t => trivial

theorem forwardProg_within (E : Engine ρ T) (l : Layer T) (hnd : ¬ Draws l) (m p : Nat) (x : Tensor T)
    {k : Tensor T → Prog PLoc (PCell ρ T)} (hk : ∀ y, (k y).Within (OfModel m) (OfModel m)) :
    (l.forwardProg E (.member m p) x k).Within (OfModel m) (OfModel m) := by
  have own : ∀ f, OfModel m (.member m p f) := fun _ => rfl
  unfold Layer.forwardProg
  cases hl : l.kind with
  | fc f => exact ⟨⟨own _, own _⟩, orFail_within hk⟩
  | activation f => exact ⟨⟨own _, own _⟩, orFail_within hk⟩
  | maxPool f =>
    simp only
    unfold MaxPool.forwardProg
    split
    · trivial
    · exact ⟨⟨own _, own _⟩, orFail_within hk⟩
  | conv f =>
    simp only
    unfold Conv.forwardProg
    split
    · trivial
    · refine orFail_within fun c => ?_
      split
      · trivial
      · exact ⟨⟨own _, own _⟩, orFail_within hk⟩
  | flatten f =>
    simp only
    unfold Flatten.forwardProg
    split
    · trivial
    · split
      · exact hk _
      · exact ⟨⟨own _, own _⟩, readShape_within (own _) fun _ => orFail_within fun _ => readShape_within (own _) fun _ => orFail_within hk⟩
  | dropout f =>
    have hm : l.trainingMode = false := by
      cases h : l.trainingMode with
      | false => rfl
      | true => exact absurd ⟨⟨f, hl⟩, h⟩ hnd
    rw [hm]
    exact hk x
  | batchNorm f =>
    simp only
    unfold BatchNorm.forwardProg
    split
    · trivial
    · split
      · exact orFail_within fun _ => ⟨⟨own _, own _⟩, readTensor_within (own _) fun _ => orFail_within fun _ =>
          ⟨⟨own _, own _⟩, readTensor_within (own _) fun _ => orFail_within fun _ => readTensor_within (own _) fun _ =>
          orFail_within fun _ => orFail_within fun _ => orFail_within fun _ => orFail_within fun _ =>
          ⟨⟨own _, own _⟩, readTensor_within (own _) fun _ => orFail_within fun _ => readTensor_within (own _) fun _ =>
          readTensor_within (own _) fun _ => orFail_within fun _ =>
          ⟨⟨own _, own _⟩, readTensor_within (own _) fun _ => readTensor_within (own _) fun _ => orFail_within fun _ =>
          ⟨⟨own _, own _⟩, hk _⟩⟩⟩⟩⟩
      · exact readTensor_within (own _) fun _ => orFail_within fun _ => readTensor_within (own _) fun _ => orFail_within fun _ =>
          orFail_within fun _ => orFail_within fun _ => orFail_within fun _ => orFail_within hk

theorem layersProg_within (E : Engine ρ T) (m : Nat) : ∀ (ls : List (Layer T)) (p : Nat) (x : Tensor T)
    (k : Tensor T → Prog PLoc (PCell ρ T)), (∀ l ∈ ls, ¬ Draws l) → (∀ y, (k y).Within (OfModel m) (OfModel m)) →
    (layersProg E m p ls x k).Within (OfModel m) (OfModel m)
  | [], _, x, k, _, hk => hk x
  | l :: ls, p, x, k, hn, hk =>
    forwardProg_within E l (hn l (by simp)) m p x fun y =>
      layersProg_within E m ls (p + 1) y k (fun l' hl' => hn l' (by simp [hl'])) hk

theorem predictionsProg_within (E : Engine ρ T) (m : Nat) (ls : List (Layer T)) (hn : ∀ l ∈ ls, ¬ Draws l) :
    ∀ (xs : List (Tensor T)) (j : Nat), (predictionsProg E m ls j xs).Within (OfModel m) (OfModel m)
  | [], _ => trivial
  | x :: xs, j => layersProg_within E m ls 0 x _ hn fun _ =>
      ⟨⟨rfl, rfl⟩, predictionsProg_within E m ls hn xs (j + 1)⟩

/-! #### The claim -/

/-- Memory that holds a model for each number, with the given layers, and a list of results for each model. -/
def Spec.memoryOf (layers : Nat → List (Layer T)) (r : ρ) (outs : Nat → List (Option (Tensor T))) : Mem PLoc (PCell ρ T) :=
  modelsMem (fun m p => (layers m)[p]?) r outs

/-- **C90 (separate models).**  Any number of models, each used for any list of predictions by one thread at a time, with the work shared out among any
number of threads and interleaved in any way: if each list of predictions succeeds when made alone and no dropout layer is in training mode, then no
execution fails or races, every execution ends, and it leaves the same results and the same layers as when the predictions are made one after another.
All seven layer classes, both modes of batch normalisation. -/
theorem C90_separate_models_partial (E : Engine ρ T) (n : Nat) (nets nets' : Nat → Net ρ T) (xs ys : Nat → List (Tensor T)) (r : ρ)
    (hr : ∀ i < n, (nets i).rng = r) (hn : ∀ i < n, ∀ l ∈ (nets i).layers, ¬ Draws l)
    (hp : ∀ i < n, Net.predictAll E (xs i) (nets i) = (.ok (ys i), nets' i)) :
    AlwaysGives (memoryOf (fun i => (nets i).layers) r fun i => (xs i).map fun _ => none)
      (fun i => predictionsProg E i (nets i).layers 0 (xs i)) n
      (memoryOf (fun i => if i < n then (nets' i).layers else (nets i).layers) r
        fun i => if i < n then (ys i).map some else (xs i).map fun _ => none) := by
  refine alwaysGives_of (A := OfModel) (W := OfModel) ⟨?_, fun _ _ _ h => h, ?_⟩ ⟨?_, ?_⟩
  · exact fun i hi => predictionsProg_within E i _ (hn i hi) _ _
  · rintro i - j - hij loc h1 h2
    cases loc with
    | engine => exact h1
    | member a b f => exact hij (h1.symm.trans h2)
    | out a b => exact hij (h1.symm.trans h2)
  · intro i hi
    obtain ⟨L, O, h1, h2, h3⟩ := predictions_run (m := i) E (nets i).layers (xs i) 0 (fun m p => (nets m).layers[p]?)
      (fun i => (xs i).map fun _ => none) (nets i) (nets' i) (ys i) (fun _ _ => rfl) (fun _ => rfl) (by simp) (hp i hi)
    rw [hr i hi] at h1
    refine ⟨_, h1, ?_⟩
    intro loc hloc
    cases loc with
    | engine => exact hloc.elim
    | member a b f =>
      obtain rfl : a = i := hloc
      simp only [memoryOf, modelsMem, if_pos hi, h2]
    | out a b =>
      obtain rfl : a = i := hloc
      simp only [memoryOf, modelsMem, if_pos hi, h3]
      simp
  · intro loc hloc
    cases loc with
    | engine => rfl
    | member a b f =>
      have : ¬ a < n := fun h => hloc a h rfl
      simp only [memoryOf, modelsMem, if_neg this]
    | out a b =>
      have : ¬ a < n := fun h => hloc a h rfl
      simp only [memoryOf, modelsMem, if_neg this]

/-- The layer assigns to one of its members in `forward`. -/
def Spec.StoresOnForward (l : Layer T) (x : Tensor T) : Prop :=
  match l.kind with
  | .fc _ | .conv _ | .maxPool _ | .activation _ => True
  | .flatten _ => 3 ≤ x.shape.rank
  | .batchNorm _ => l.trainingMode = true
  | .dropout _ => False

theorem stores_first_write (E : Engine ρ T) {l : Layer T} {x : Tensor T} {r : ρ} (hr : StoresOnForward l x)
    {y : Tensor T} (hy : (Layer.forward E x (l, r)).1 = .ok y) (m p : Nat) (k : Tensor T → Prog PLoc (PCell ρ T)) :
    ∃ f, (l.forwardProg E (.member m p) x k).nextWrite = some (.member m p f) ∧
      ∀ z r', StoresOnForward l z → (∃ y', (Layer.forward E z (l, r')).1 = .ok y') → ∀ k',
        (l.forwardProg E (.member m p) z k').nextWrite = some (.member m p f) := by
  have key : ∃ f, ∀ z r', StoresOnForward l z → (∃ y', (Layer.forward E z (l, r')).1 = .ok y') → ∀ k',
        (l.forwardProg E (.member m p) z k').nextWrite = some (.member m p f) := by
    cases hl : l.kind with
    | fc f =>
      refine ⟨.input, fun z r' _ _ k' => ?_⟩
      simp only [Layer.forwardProg, hl]
      rfl
    | activation f =>
      refine ⟨.input, fun z r' _ _ k' => ?_⟩
      simp only [Layer.forwardProg, hl]
      rfl
    | dropout f =>
      simp only [StoresOnForward, hl] at hr
    | maxPool f =>
      refine ⟨.input, ?_⟩
      rintro z r' - ⟨y', h⟩ k'
      simp only [Layer.forwardProg, hl]
      unfold MaxPool.forwardProg
      by_cases hk : z.shape.rank ≠ 4
      · simp only [Layer.forward, hl, Layer.onKind, MaxPool.forward, if_pos hk, Mut.lift] at h
        simp at h
      · rw [if_neg hk]; rfl
    | conv f =>
      refine ⟨.input, ?_⟩
      rintro z r' - ⟨y', h⟩ k'
      simp only [Layer.forwardProg, hl]
      simp only [Layer.forward, hl, Layer.onKind, Conv.forward] at h
      unfold Conv.forwardProg
      rw [Mut.get_bind] at h
      by_cases hk : z.shape.rank ≠ 4
      · rw [if_pos hk] at h
        simp [Mut.lift] at h
      · rw [if_neg hk] at h ⊢
        cases hc : z.shape.get 1 with
        | error e => rw [hc, Mut.lift_error_bind] at h; simp at h
        | ok c =>
          rw [hc, Mut.lift_ok_bind] at h
          by_cases hcc : c ≠ f.inputChannels
          · rw [if_pos hcc] at h
            simp [Mut.lift] at h
          · simp only [orFail, if_neg hcc]
            rfl
    | flatten f =>
      refine ⟨.originalShape, fun z r' hz _ k' => ?_⟩
      simp only [StoresOnForward, hl] at hz
      simp only [Layer.forwardProg, hl]
      unfold Flatten.forwardProg
      rw [if_neg (by omega), if_neg (by omega)]
      rfl
    | batchNorm f =>
      refine ⟨.batchMean, ?_⟩
      rintro z r' hz ⟨y', h⟩ k'
      simp only [StoresOnForward, hl] at hz
      simp only [Layer.forwardProg, hl]
      simp only [Layer.forward, hl, Layer.onKind, BatchNorm.forward, hz] at h
      unfold BatchNorm.forwardProg
      by_cases hk : z.shape.rank ≠ 2 ∧ z.shape.rank ≠ 4
      · rw [if_pos hk] at h
        simp [Mut.lift] at h
      · rw [if_neg hk] at h ⊢
        simp only [if_true, Mut.get_bind] at h
        rw [if_pos hz]
        cases hc : z.meanAxes (BatchNorm.axes z.shape) with
        | error e => rw [hc, Mut.lift_error_bind] at h; simp at h
        | ok c => rfl
  obtain ⟨f, hf⟩ := key
  exact ⟨f, hf x r hr ⟨y, hy⟩ k, hf⟩

omit [Zero T] [One T] [Add T] [Sub T] [Mul T] [Div T] [Neg T] [NatCast T] [IntCast T] [LT T] [DecidableLT T] [LE T]
  [DecidableLE T] [DecidableEq T] [MathFn T] in
theorem seq_done {L V : Type} : ∀ a : Prog L V, a.seq .done = a
  | .done => rfl
  | .fail _ => rfl
  | .read l k => by
    show Prog.read l (fun v => (k v).seq .done) = _
    congr 1
    funext v
    exact seq_done (k v)
  | .write l v k => by
    show Prog.write l v (k.seq .done) = _
    rw [seq_done k]

theorem seq_nextWrite {L V : Type} {a q : Prog L V} {loc : L} (h : a.nextWrite = some loc) : (a.seq q).nextWrite = some loc := by
  cases a <;> simp_all [Prog.nextWrite, Prog.seq]

omit [Zero T] [One T] [Add T] [Sub T] [Mul T] [Div T] [Neg T] [NatCast T] [IntCast T] [LT T] [DecidableLT T] [LE T]
  [DecidableLE T] [DecidableEq T] [MathFn T] in
theorem nextAccess_of_nextWrite {L V : Type} {b : Prog L V} {loc : L} (h : b.nextWrite = some loc) : b.nextAccess = some loc := by
  cases b <;> simp_all [Prog.nextWrite, Prog.nextAccess]

/-- One call `predict(x)` of the model number `m` with the given layers, whose result is kept as number `i`. -/
def Spec.oneCall (E : Engine ρ T) (m : Nat) (ls : List (Layer T)) (i : Nat) (x : Tensor T) : Prog PLoc (PCell ρ T) :=
  layersProg E m 0 ls x fun y => .write (.out m i) (.tensor (some y)) .done

/-- **C90 (refuted: one model).**  Two threads call `predict` of the same model, whose first layer is of any class but dropout (flatten on three or more
dimensions, batch normalisation in training mode), on inputs this layer accepts.  Then the first accesses of the two threads race, whatever the inputs
and the rest of the model are; in C++ this is undefined behaviour. -/
theorem C90_race_refuted (E : Engine ρ T) (net : Net ρ T) {l : Layer T} {ls : List (Layer T)} (hnet : net.layers = l :: ls)
    (x : Nat → Tensor T) (hx : ∀ i, StoresOnForward l (x i)) (hy : ∀ i, ∃ y, (Layer.forward E (x i) (l, net.rng)).1 = .ok y)
    (mem : Mem PLoc (PCell ρ T)) :
    (Config.start mem (fun i => oneCall E 0 net.layers i (x i)) [[0], [1]]).Race ∧
    ¬ ∃ memF, AlwaysGives mem (fun i => oneCall E 0 net.layers i (x i)) 2 memF := by
  have hrace : (Config.start mem (fun i => oneCall E 0 net.layers i (x i)) [[0], [1]]).Race := by
    rw [hnet]
    obtain ⟨y, hy0⟩ := hy 0
    obtain ⟨f, h1, h2⟩ := stores_first_write E (hx 0) hy0 0 0
      (fun y => layersProg E 0 1 ls y fun y => .write (.out 0 0) (.tensor (some y)) .done)
    exact ⟨0, 1, by decide, _, _, .member 0 0 f, rfl, rfl, seq_nextWrite h1,
      nextAccess_of_nextWrite (seq_nextWrite (h2 (x 1) net.rng (hx 1) (hy 1) _))⟩
  refine ⟨hrace, ?_⟩
  rintro ⟨memF, h⟩
  obtain ⟨_, hb⟩ := h [[0], [1]] (List.Perm.refl _)
  exact (hb 0 _ (.refl _)).2.1 hrace

/-- **C90 (refuted: separate models with dropout).**  Two threads, each with a model of its own that starts with a dropout layer in training mode: after one
access they race on the random engine, of which there is only one in a process. -/
theorem C90_dropout_refuted (E : Engine ρ T) (nets : Nat → Net ρ T) (ls : Nat → List (Layer T)) (d : Nat → Dropout T) (x : Nat → Tensor T) (r : ρ)
    (hnet : ∀ i, (nets i).layers = ⟨.dropout (d i), true⟩ :: ls i)
    (hy : ∀ i, ∃ y, (Layer.forward E (x i) (⟨.dropout (d i), true⟩, r)).1 = .ok y) (outs : Nat → List (Option (Tensor T))) :
    ∃ c, Config.Steps 1 (Config.start (memoryOf (fun i => (nets i).layers) r outs)
      (fun i => oneCall E i (nets i).layers 0 (x i)) [[0], [1]]) c ∧ c.Race := by
  obtain ⟨y, hy0⟩ := hy 0
  cases h1 : Tensor.rand E (x 0).shape r with
  | error e =>
    simp only [Layer.forward, Layer.onKind, Dropout.forward, if_true, Mut.get_bind, h1, Mut.lift_error_bind] at hy0
    simp at hy0
  | ok mr =>
    have h0 : ∀ i, ∃ k : PCell ρ T → Prog PLoc (PCell ρ T), oneCall E i (nets i).layers 0 (x i) = .read .engine k ∧
        (i = 0 → (k (.state r)).nextWrite = some .engine) := by
      intro i
      rw [hnet i]
      refine ⟨_, rfl, ?_⟩
      rintro rfl
      simp only [h1, orFail]
      rfl
    obtain ⟨k0, e0, g0⟩ := h0 0
    obtain ⟨k1, e1, -⟩ := h0 1
    have e : Config.start (memoryOf (fun i => (nets i).layers) r outs) (fun i => oneCall E i (nets i).layers 0 (x i)) [[0], [1]] =
        ⟨memoryOf (fun i => (nets i).layers) r outs, [] ++ .read .engine (fun v => (k0 v).seq .done) ::
          [.read .engine (fun v => (k1 v).seq .done)]⟩ := by
      show (⟨_, [(oneCall E 0 (nets 0).layers 0 (x 0)).seq .done, (oneCall E 1 (nets 1).layers 0 (x 1)).seq .done]⟩ : Config _ _) = _
      rw [e0, e1]
      rfl
    rw [e]
    refine ⟨_, .tail (.refl _) (.read (v := .state r) rfl), ?_⟩
    exact ⟨0, 1, by decide, _, _, .engine, rfl, rfl, seq_nextWrite (g0 rfl), rfl⟩

/-- What a thread does after the read it is about to make. -/
def afterRead {L V : Type} : Prog L V → V → Prog L V
  | .read _ k, v => k v
  | p, _ => p

theorem stale_read {L V : Type} [DecidableEq L] {mem : Mem L V} {loc o0 o1 : L} (h0 : loc ≠ o0) (h1 : loc ≠ o1) (h01 : o0 ≠ o1) {a b d v0 v1 u0 u1 : V}
    (m0 : mem loc = some a) (m1 : mem o0 = some b) (m2 : mem o1 = some d) {R1 R2 S1 S2 : V → Prog L V} (r1 : R1 v1 = .read loc R2)
    (r2 : R2 v1 = .write o0 u0 .done) (s1 : S1 v1 = .read loc S2) (s2 : S2 v1 = .write o1 u1 .done) :
    ∃ k c, Config.Steps k ⟨mem, [.write loc v0 (.read loc R1), .write loc v1 (.read loc S1)]⟩ c ∧ c.Finished ∧
      c.mem o0 = some u0 ∧ c.mem o1 = some u1 := by
  have e : Config.exec [0, 1, 0, 0, 0, 1, 1, 1] ⟨mem, [.write loc v0 (.read loc R1), .write loc v1 (.read loc S1)]⟩ =
      some ⟨(((mem.put loc v0).put loc v1).put o0 u0).put o1 u1, [.done, .done]⟩ := by
    have h0' := Ne.symm h0
    have h1' := Ne.symm h1
    have h01' := Ne.symm h01
    simp [Config.exec, Config.stepAt, Mem.put, *]
  refine ⟨_, _, Config.exec_steps _ e, ?_, ?_, ?_⟩
  · intro p hp
    simpa using hp
  · simp [Mem.put, h01]
  · simp [Mem.put]

/-- **C90 (refuted: wrong result).**  A flatten layer reads back the shape it has just stored.  If another thread flattens a batch of as many numbers but
another number of samples in between, the result has the wrong number of rows, without any error: predicting the batch `x` of `a` samples alone gives `a`
rows, with the other thread it can give `b` rows. -/
theorem C90_wrong_result_refuted (E : Engine ρ T) {a b : Nat} {ds es : List Nat} (hd : Dims (a :: ds)) (he : Dims (b :: es)) (h1 : 2 ≤ ds.length)
    (h2 : 2 ≤ es.length) (hp : (a :: ds).prod = (b :: es).prod) (f g : List Nat → T) (r : ρ) :
    (∃ y net', Net.predict E (ofFn (a :: ds) f) ⟨[⟨.flatten {}, true⟩], none, none, r⟩ = (.ok y, net') ∧ y.shape = shapeOf [a, ds.prod]) ∧
    (∃ k c w, Config.Steps k (Config.start (memoryOf (fun _ => [⟨.flatten {}, true⟩]) r fun _ => [none, none])
        (fun i => oneCall E 0 [⟨.flatten {}, true⟩] i (if i = 0 then ofFn (a :: ds) f else ofFn (b :: es) g)) [[0], [1]]) c ∧ c.Finished ∧
      c.mem (.out 0 0) = some (.tensor (some w)) ∧ w.shape = shapeOf [b, es.prod]) := by
  constructor
  · have hf := flatten_forward hd h1 f {}
    unfold Net.predict
    simp only [Net.forwardLayers, Layer.forward, Layer.onKind, hf]
    exact ⟨_, _, rfl, rfl⟩
  · have hb : (shapeOf (b :: es)).get 0 = .ok (b : Int) := rfl
    have hbp : 0 < b := he.pos b (by simp)
    have hse : (shapeOf (b :: es)).size / toSizeT (b : Int) = es.prod := by
      rw [shapeOf_size, toSizeT_nat (lt_of_le_of_lt (Nat.le_of_dvd (List.prod_pos he.pos) (List.dvd_prod (by simp))) he.lt64),
        List.prod_cons, Nat.mul_div_cancel_left _ hbp]
    have hes : Dims [b, es.prod] := by
      refine ⟨by simp, ?_, ?_⟩
      · intro d hd'
        simp only [List.mem_cons, List.not_mem_nil, or_false] at hd'
        rcases hd' with rfl | rfl
        · exact hbp
        · exact List.prod_pos fun d hd' => he.pos d (by simp [hd'])
      · have := he.lt
        simpa using this
    have hi32 : toInt32 ((es.prod : Nat) : Int) = es.prod := toInt32_small (by
      have := he.lt
      rw [List.prod_cons] at this
      exact lt_of_le_of_lt (Nat.le_mul_of_pos_left _ hbp) this)
    have hr : ∀ (cs : List Nat) (φ : List Nat → T), cs.prod = (b :: es).prod → (ofFn cs φ).reshaped
        [(b : Int), toInt32 (((shapeOf (b :: es)).size / toSizeT (b : Int) : Nat) : Int)] = .ok ⟨shapeOf [b, es.prod], (indices cs).map φ⟩ := by
      intro cs φ hc
      rw [hse, hi32]
      exact reshaped_ofFn hes (by rw [hc]; simp) φ
    have hprog : ∀ (i : Nat) (cs : List Nat) (φ : List Nat → T), 3 ≤ cs.length → cs.prod = (b :: es).prod →
        ∃ R1 R2 : PCell ρ T → Prog PLoc (PCell ρ T), oneCall E 0 [⟨.flatten {}, true⟩] i (ofFn cs φ) =
          .write (.member 0 0 .originalShape) (.shape (some (shapeOf cs))) (.read (.member 0 0 .originalShape) R1) ∧
        R1 (.shape (some (shapeOf (b :: es)))) = .read (.member 0 0 .originalShape) R2 ∧
        R2 (.shape (some (shapeOf (b :: es)))) = .write (.out 0 i) (.tensor (some ⟨shapeOf [b, es.prod], (indices cs).map φ⟩)) .done := by
      intro i cs φ hc hpr
      let R1 := afterRead (readShape (ρ := ρ) (T := T) (.member 0 0 .originalShape) fun s =>
        orFail (s.get 0) fun batchSize => readShape (.member 0 0 .originalShape) fun s' =>
        orFail ((ofFn cs φ).reshaped [batchSize, toInt32 (s'.size / toSizeT batchSize : Nat)]) fun y =>
        .write (.out 0 i) (.tensor (some y)) .done)
      refine ⟨R1, afterRead (R1 (.shape (some (shapeOf (b :: es))))), ?_, ?_, ?_⟩
      · show Flatten.forwardProg _ (ofFn cs φ) _ = _
        unfold Flatten.forwardProg
        rw [if_neg (by rw [ofFn_shape, shapeOf_rank]; omega), if_neg (by rw [ofFn_shape, shapeOf_rank]; omega)]
        rfl
      · rfl
      · show orFail ((ofFn cs φ).reshaped _) _ = _
        rw [hr cs φ hpr]
        rfl
    obtain ⟨R1, R2, p1, p2, p3⟩ := hprog 0 (a :: ds) f (by simp; omega) hp
    obtain ⟨S1, S2, q1, q2, q3⟩ := hprog 1 (b :: es) g (by simp; omega) rfl
    obtain ⟨k, c, g1, g2, g3, -⟩ := stale_read (mem := memoryOf (fun _ => [⟨.flatten {}, true⟩]) r fun _ => [none, none])
      (loc := .member 0 0 .originalShape) (o0 := .out 0 0) (o1 := .out 0 1) (by simp) (by simp) (by simp) (a := .shape none) (b := .tensor none)
      (d := .tensor none) (v0 := .shape (some (shapeOf (a :: ds)))) rfl rfl rfl p2 p3 q2 q3
    refine ⟨k, c, _, ?_, g2, g3, rfl⟩
    have e : Config.start (memoryOf (fun _ => [⟨.flatten {}, true⟩]) r fun _ => [none, none])
        (fun i => oneCall E 0 [⟨.flatten {}, true⟩] i (if i = 0 then ofFn (a :: ds) f else ofFn (b :: es) g)) [[0], [1]] =
        ⟨memoryOf (fun _ => [⟨.flatten {}, true⟩]) r fun _ => [none, none],
          [.write (.member 0 0 .originalShape) (.shape (some (shapeOf (a :: ds)))) (.read (.member 0 0 .originalShape) R1),
           .write (.member 0 0 .originalShape) (.shape (some (shapeOf (b :: es)))) (.read (.member 0 0 .originalShape) S1)]⟩ := by
      show (⟨_, [(oneCall E 0 [⟨.flatten {}, true⟩] 0 (ofFn (a :: ds) f)).seq .done,
        (oneCall E 0 [⟨.flatten {}, true⟩] 1 (ofFn (b :: es) g)).seq .done]⟩ : Config _ _) = _
      rw [seq_done, seq_done, p1, q1]
    rw [e]
    exact g1

/-! Several models of a dense and a dropout layer (not in training mode), each asked for two predictions by its own thread. -/

example (E : Engine ρ T) (r : ρ) (n : Nat) (w b x z : Nat → List Nat → T) : ∃ (nets nets' : Nat → Net ρ T) (ys : Nat → List (Tensor T)),
    (∀ i < n, (nets i).rng = r) ∧ (∀ i < n, ∀ l ∈ (nets i).layers, ¬ Draws l) ∧
    ∀ i < n, Net.predictAll E [ofFn [2, 3] (x i), ofFn [2, 3] (z i)] (nets i) = (.ok (ys i), nets' i) := by
  have hd : Dims [2, 2] := ⟨by simp, by simp, by norm_num⟩
  refine ⟨fun i => ⟨[⟨.fc { weights := ofFn [3, 2] (w i), biases := ofFn [1, 2] (b i) }, true⟩, ⟨.dropout ⟨1, none⟩, false⟩], none, none, r⟩,
    fun i => ⟨[⟨.fc { weights := ofFn [3, 2] (w i), biases := ofFn [1, 2] (b i), input := some (ofFn [2, 3] (z i)) }, true⟩,
      ⟨.dropout ⟨1, none⟩, false⟩], none, none, r⟩,
    fun i => [ofFn [2, 2] (denseRow 3 (w i) (b i) (x i)), ofFn [2, 2] (denseRow 3 (w i) (b i) (z i))], fun _ _ => rfl, ?_, ?_⟩
  · intro i _ l hl
    simp only [List.mem_cons, List.not_mem_nil, or_false] at hl
    rcases hl with rfl | rfl
    · rintro ⟨⟨f, hf⟩, -⟩
      cases hf
    · rintro ⟨-, h⟩
      cases h
  · intro i _
    have hs : ∀ (u : List Nat → T) (inp : Option (Tensor T)), Net.predict E (ofFn [2, 3] u)
        ⟨[⟨.fc { weights := ofFn [3, 2] (w i), biases := ofFn [1, 2] (b i), input := inp }, true⟩, ⟨.dropout ⟨1, none⟩, false⟩], none, none, r⟩ =
        (.ok (ofFn [2, 2] (denseRow 3 (w i) (b i) u)),
          ⟨[⟨.fc { weights := ofFn [3, 2] (w i), biases := ofFn [1, 2] (b i), input := some (ofFn [2, 3] u) }, true⟩,
            ⟨.dropout ⟨1, none⟩, false⟩], none, none, r⟩) := by
      intro u inp
      have e : ∀ res : Res (Tensor T), res = .ok (ofFn [2, 2] (denseRow 3 (w i) (b i) u)) →
          FC.affine (ofFn [3, 2] (w i)) (ofFn [1, 2] (b i)) (ofFn [2, 3] u) = res := by
        intro res h
        rw [h]
        exact fc_affine_batch hd (w i) (b i) u
      have e1 : FC.forward (ofFn [2, 3] u) { weights := ofFn [3, 2] (w i), biases := ofFn [1, 2] (b i), input := inp } =
          (.ok (ofFn [2, 2] (denseRow 3 (w i) (b i) u)),
            { weights := ofFn [3, 2] (w i), biases := ofFn [1, 2] (b i), input := some (ofFn [2, 3] u) }) := Prod.ext (e _ rfl) rfl
      unfold Net.predict
      simp only [Net.forwardLayers, Layer.forward, Layer.onKind, e1]
      rfl
    unfold Net.predictAll Net.predictAll Net.predictAll
    rw [Mut.bind_apply, hs]
    simp only
    rw [Mut.bind_apply, Mut.bind_apply, hs]
    rfl

/-! The hypotheses of `C90_race_refuted`, `C90_dropout_refuted` and `C90_wrong_result_refuted` hold for a dense layer, an engine that always
succeeds, and batches of two and one samples. -/

example (E : Engine ρ T) (r : ρ) (w b x : List Nat → T) :
    let l : Layer T := ⟨.fc { weights := ofFn [3, 2] w, biases := ofFn [1, 2] b }, true⟩
    StoresOnForward l (ofFn [2, 3] x) ∧ ∃ y, (Layer.forward E (ofFn [2, 3] x) (l, r)).1 = .ok y :=
  ⟨trivial, _, fc_affine_batch ⟨by simp, by simp, by norm_num⟩ w b x⟩

example : Dims (2 :: [1, 2]) ∧ Dims (1 :: [2, 2]) ∧ (2 :: [1, 2]).prod = (1 :: [2, 2]).prod :=
  ⟨⟨by simp, by simp, by norm_num⟩, ⟨by simp, by simp, by norm_num⟩, by norm_num⟩

end

example {ρ : Type} (E : Engine ρ ℝ) (r : ρ) (x : List Nat → ℝ) :
    ∃ y, (Layer.forward E (ofFn [2, 3] x) ((⟨.dropout ⟨1 / 2, none⟩, true⟩ : Layer ℝ), r)).1 = .ok y := by
  obtain ⟨u, r', l', -, h⟩ := C48_training E (ds := [2, 3]) ⟨by simp, by simp, by norm_num⟩ x ⟨1 / 2, none⟩ r (by norm_num)
  exact ⟨_, congrArg Prod.fst h⟩

end SmartDNN
