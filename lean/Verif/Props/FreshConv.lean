import Verif.Props.FreshDense
import Verif.Props.Conv

/-!
# C123: dead channels of a new convolution
-/

namespace SmartDNN
open Spec MeasureTheory ProbabilityTheory

variable {ρ : Type}

/-- Channel `c` of the answer of the layer is 0 everywhere for every batch of images with one channel that are not smaller than the kernels. -/
def Spec.DeadChannel (oc kh kw c : Nat) (l : Conv ℝ) : Prop :=
  ∀ n h w, Dims [n, 1, h, w] → kh ≤ h → kw ≤ w → n * oc * h * w < 2 ^ 31 → ∀ x : List Nat → ℝ,
    ∃ y l', Conv.forward (ofFn [n, 1, h, w] x) l = (.ok (ofFn [n, oc, h - kh + 1, w - kw + 1] y), l') ∧ ∀ i u v, y [i, c, u, v] = 0

/-- **C123, refuted for convolutions.**  Each output channel of a new convolution of images with one channel (stride 1, no padding) is zero for all images with probability at least
2^(-kernel height * kernel width). -/
theorem C123_conv_dead_refuted [MeasurableSpace ρ] (P : Measure ρ) (S : RandSource ρ ℝ) (hm : ∀ k, Measurable (gaussAt S k)) (hlaw : ∀ k, P.map (gaussAt S k) = gaussianReal 0 1)
    (hind : iIndepFun (gaussAt S) P) {oc kh kw c : Nat} (hw : Dims [oc, 1, kh, kw]) (hc : c < oc) :
    (1 / 2) ^ (kh * kw) ≤ P {r | ∃ l r', Conv.new S.engine 1 oc kh kw 1 0 1 r = .ok (l, r') ∧ DeadChannel oc kh kw c l} := by
  classical
  have p3 : 0 < kh := hw.pos kh (by simp)
  have p4 : 0 < kw := hw.pos kw (by simp)
  have p1 : 0 < oc := hw.pos oc (by simp)
  have db : Dims [oc, 1] := ⟨by simp, by simp [p1], by
    have := hw.lt
    simp only [List.prod_cons, List.prod_nil, mul_one, one_mul] at this ⊢
    exact lt_of_le_of_lt (Nat.le_mul_of_pos_right _ (Nat.mul_pos p3 p4)) this⟩
  set I : Finset (List Nat) := (Finset.range kh ×ˢ Finset.range kw).image fun p => [c, 0, p.1, p.2] with hIdef
  have hI : ∀ i ∈ I, ValidIdx [oc, 1, kh, kw] i := fun i hi => by
    obtain ⟨p, hp, rfl⟩ := Finset.mem_image.1 hi
    obtain ⟨h1, h2⟩ := Finset.mem_product.1 hp
    exact valid4_iff.2 ⟨c, 0, p.1, p.2, rfl, hc, Nat.one_pos, Finset.mem_range.1 h1, Finset.mem_range.1 h2⟩
  have hjn := C122_randn_joint_partial P S hm hlaw hind 0 1 I hI (fun _ => {0}) fun _ _ => measurableSet_singleton 0
  have one : ∀ i ∈ I, gaussianReal 0 (2 / ([oc, 1, kh, kw].prod : NNReal)) {x : ℝ | min (max x 0) 1 ∈ ({0} : Set ℝ)} = 1 / 2 := fun i hi => by
    rw [← C122_randn_law_partial P S (hI i hi) 0 1 (hm _) (hlaw _) (measurableSet_singleton 0), ← C122_rand_refuted P S hw (hI i hi) (hm _) (hlaw _)]
    rfl
  have hcard : I.card = kh * kw := by
    rw [hIdef, Finset.card_image_of_injective _ fun a b h => by simpa [Prod.ext_iff] using h, Finset.card_product, Finset.card_range, Finset.card_range]
  rw [Finset.prod_congr rfl one, Finset.prod_const, hcard] at hjn
  rw [← hjn]
  refine measure_mono ?_
  rintro r ⟨f, r', e, hf⟩
  have z : ∀ u < kh, ∀ v < kw, f [c, 0, u, v] = 0 := fun u hu v hv =>
    hf _ (Finset.mem_image.2 ⟨(u, v), Finset.mem_product.2 ⟨Finset.mem_range.2 hu, Finset.mem_range.2 hv⟩, rfl⟩)
  have hnew : Conv.new S.engine 1 oc kh kw 1 0 1 r = .ok (⟨1, oc, kh, kw, 1, 0, 1, ofFn [oc, 1, kh, kw] f, ofFn [oc, 1] fun _ => 0, none, none, none⟩, r') := by
    unfold Conv.new
    rw [show [(oc : Int), 1, (kh : Int), (kw : Int)] = ints [oc, 1, kh, kw] from rfl, make_dims hw, show [(oc : Int), 1] = ints [oc, 1] from rfl, make_dims db]
    have e' : Tensor.rand S.engine (shapeOf [oc, 1, kh, kw]) r = .ok (ofFn [oc, 1, kh, kw] f, r') := e
    simp only [Except.bind_ok', e']
    rw [zeros_shapeOf]
    rfl
  refine ⟨_, r', hnew, fun n h w hd hkh hkw ho x => ?_⟩
  have hcf := C43_single_channel_partial (T := ℝ) (fun _ => rfl) hd hw db hkh hkw ho f (fun _ => 0) x none none none
  have e1 : ∀ a b : Nat, 0 < a → a ≤ b → convOut a 1 0 1 b = b - a + 1 := fun a b h1 h2 => by
    unfold convOut
    rw [Nat.div_one]
    omega
  rw [e1 kh h p3 hkh, e1 kw w p4 hkw] at hcf
  refine ⟨_, _, hcf, fun i u v => ?_⟩
  simp only [conv, List.getD_cons_succ, List.getD_cons_zero, add_zero, Finset.sum_range_one]
  exact Finset.sum_eq_zero fun a ha => Finset.sum_eq_zero fun b hb => by rw [z a (Finset.mem_range.1 ha) b (Finset.mem_range.1 hb), mul_zero]

/-- Four channels with 3 by 3 kernels; engines as in the theorem are given by `independent_engine`. -/
example : ∃ (S : RandSource (Nat → ℝ) ℝ) (P : Measure (Nat → ℝ)), (1 / 2) ^ 9 ≤ P {r | ∃ l r', Conv.new S.engine 1 4 3 3 1 0 1 r = .ok (l, r') ∧ DeadChannel 4 3 3 2 l} := by
  obtain ⟨S, P, h1, h2, h3⟩ := independent_engine
  exact ⟨S, P, C123_conv_dead_refuted P S h1 h2 h3 (oc := 4) (kh := 3) (kw := 3) (c := 2) ⟨by simp, by simp, by simp⟩ (by norm_num)⟩

end SmartDNN
