import Verif.Props.MaxPool
import Verif.Proofs.LinearCalculus

/-!
# Differentiating max pooling
-/

namespace SmartDNN
open Spec Filter Topology

/-- A function each of whose outputs is, near `f`, one of the inputs. -/
theorem hasVJP_select {ds es : List Nat} {F : (List Nat → ℝ) → List Nat → ℝ} {f : List Nat → ℝ} (route : List Nat → List Nat)
    (hr : ∀ j, ValidIdx es j → ValidIdx ds (route j))
    (hF : ∀ c v, CurveAt ds c f v → ∀ j, ValidIdx es j → ∀ᶠ t in 𝓝 (0 : ℝ), F (c t) j = c t (route j)) :
    HasVJP ds es F f (fun g i => total es (fun j => if route j = i then g j else 0)) := by
  intro g c v hc
  have h := hasVJP_gather (ds := ds) (es := es) [()] (fun _ _ => 1) (fun j _ => route j) (fun _ => 0)
    (fun j hj _ _ => Or.inr (hr j hj)) f g c v hc
  simp only [List.map_cons, List.map_nil, List.sum_cons, List.sum_nil, one_mul, add_zero, mul_one] at h
  refine h.congr_of_eventuallyEq ?_
  have hall : ∀ᶠ t in 𝓝 (0 : ℝ), ∀ j ∈ (indices es).toFinset, F (c t) j = c t (route j) :=
    (Filter.eventually_all_finset _).2 fun j hj => hF c v hc j (mem_indices.1 (by simpa using hj))
  filter_upwards [hall] with t ht
  exact total_congr fun j hj => by rw [ht j (by simpa using mem_indices.2 hj)]

theorem poolMax_eq {p s h w : Nat} {ninf : ℝ} {x : List Nat → ℝ} {i j oh ow : Nat} {m : ℝ}
    (hm : IsGreatest (insert ninf {v | ∃ y z, InWindow p s h w oh ow y z ∧ v = x [i, j, y, z]}) m) :
    poolMax p s h w ninf x [i, j, oh, ow] = m := hm.csSup_eq

theorem pool_forward {n c h w p s : Nat} (hd : Dims [n, c, h, w]) (hp : 0 < p) (hs : 0 < s)
    (hph : p ≤ h ∨ p - h < s) (hpw : p ≤ w ∨ p - w < s) (f : List Nat → ℝ) (ninf : ℝ) (inp : Option (Tensor ℝ)) :
    MaxPool.forward (ofFn [n, c, h, w] f) ⟨p, s, 0, ninf, inp⟩ =
        (.ok (ofFn [n, c, poolOut p s h, poolOut p s w] (poolMax p s h w ninf f)),
          ⟨p, s, 0, ninf, some (ofFn [n, c, h, w] f)⟩) := by
  obtain ⟨m, h1, h2⟩ := pool_greatest hd hp hs hph hpw f ninf inp
  rw [h1]
  refine congrArg (fun t => (Except.ok t, _)) (ofFn_congr fun idx hv => ?_)
  obtain ⟨i, j, oh, ow, rfl, -⟩ := valid4_iff.1 hv
  exact (poolMax_eq (h2 i j oh ow hv)).symm

theorem extensional_pool (n c h w p s oh ow : Nat) (ninf : ℝ) :
    Extensional [n, c, h, w] [n, c, oh, ow] (poolMax p s h w ninf) := by
  intro x y hxy idx hv
  obtain ⟨i, j, oh, ow, rfl, hi, hj, -⟩ := valid4_iff.1 hv
  unfold poolMax
  congr 2
  ext v
  simp only [Set.mem_setOf_eq, List.getD_cons_zero, List.getD_cons_succ]
  constructor
  · rintro ⟨a, b, hw, rfl⟩
    exact ⟨a, b, hw, hxy _ (valid4_iff.2 ⟨_, _, _, _, rfl, hi, hj, hw.2.2.1, hw.2.2.2.2.2⟩)⟩
  · rintro ⟨a, b, hw, rfl⟩
    exact ⟨a, b, hw, (hxy _ (valid4_iff.2 ⟨_, _, _, _, rfl, hi, hj, hw.2.2.1, hw.2.2.2.2.2⟩)).symm⟩

/-- Max pooling is differentiable where every window has a single maximum above `ninf`, and `backward` computes the adjoint. -/
theorem pool_vjp {n c h w p s : Nat} (hd : Dims [n, c, h, w]) (hp : 0 < p) (hs : 0 < s) (f : List Nat → ℝ) (ninf : ℝ)
    (hf : ∀ idx, ValidIdx [n, c, h, w] idx → ninf < f idx)
    (hu : ∀ i j oh ow, ValidIdx [n, c, poolOut p s h, poolOut p s w] [i, j, oh, ow] →
      ∃ y z, IsOnlyMax p s h w (fun y z => f [i, j, y, z]) oh ow y z) :
    ∃ A, HasVJP [n, c, h, w] [n, c, poolOut p s h, poolOut p s w] (poolMax p s h w ninf) f A ∧
      ∀ g, MaxPool.backward (ofFn [n, c, poolOut p s h, poolOut p s w] g) ⟨p, s, 0, ninf, some (ofFn [n, c, h, w] f)⟩ =
        (.ok (ofFn [n, c, h, w] (A g)), ⟨p, s, 0, ninf, some (ofFn [n, c, h, w] f)⟩) := by
  classical
  have hex : ∀ idx, ∃ rt : List Nat, ∀ i j oh ow, idx = [i, j, oh, ow] → ValidIdx [n, c, poolOut p s h, poolOut p s w] idx →
      ∃ y z, rt = [i, j, y, z] ∧ IsOnlyMax p s h w (fun y z => f [i, j, y, z]) oh ow y z := by
    intro idx
    by_cases hv : ValidIdx [n, c, poolOut p s h, poolOut p s w] idx
    · obtain ⟨i, j, oh, ow, rfl, -⟩ := valid4_iff.1 hv
      obtain ⟨y, z, hyz⟩ := hu i j oh ow hv
      refine ⟨[i, j, y, z], fun i' j' oh' ow' he _ => ?_⟩
      simp only [List.cons.injEq, and_true] at he
      obtain ⟨rfl, rfl, rfl, rfl⟩ := he
      exact ⟨y, z, rfl, hyz⟩
    · exact ⟨[], fun _ _ _ _ _ h => (hv h).elim⟩
  choose route hroute using hex
  have hvalid : ∀ j, ValidIdx [n, c, poolOut p s h, poolOut p s w] j → ValidIdx [n, c, h, w] (route j) := by
    intro idx hv
    obtain ⟨i, j, oh, ow, rfl, hi, hj, -⟩ := valid4_iff.1 hv
    obtain ⟨y, z, hr, hm⟩ := hroute _ i j oh ow rfl hv
    rw [hr]
    exact valid4_iff.2 ⟨_, _, _, _, rfl, hi, hj, hm.1.2.2.1, hm.1.2.2.2.2.2⟩
  refine ⟨_, hasVJP_select route hvalid ?_, fun g => ?_⟩
  · intro cv v hc idx hv
    obtain ⟨i, j, oh, ow, rfl, hi, hj, -⟩ := valid4_iff.1 hv
    obtain ⟨y, z, hr, hm⟩ := hroute _ i j oh ow rfl hv
    have hv0 := hvalid _ hv
    have c0 := (hc.2 _ hv0).continuousAt
    have hbig : ∀ᶠ t in 𝓝 (0 : ℝ), ninf < cv t (route [i, j, oh, ow]) := by
      refine continuousAt_const.eventually_lt c0 ?_
      rw [hc.1 _ hv0]
      exact hf _ hv0
    have hall : ∀ᶠ t in 𝓝 (0 : ℝ), ∀ q ∈ (indices [n, c, h, w]).toFinset,
        (∃ y' z', q = [i, j, y', z'] ∧ InWindow p s h w oh ow y' z' ∧ (y', z') ≠ (y, z)) → cv t q < cv t (route [i, j, oh, ow]) := by
      refine (Filter.eventually_all_finset _).2 fun q hq => ?_
      have hvq : ValidIdx [n, c, h, w] q := mem_indices.1 (by simpa using hq)
      by_cases hw : ∃ y' z', q = [i, j, y', z'] ∧ InWindow p s h w oh ow y' z' ∧ (y', z') ≠ (y, z)
      · obtain ⟨y', z', rfl, hin, hne⟩ := hw
        have := ((hc.2 _ hvq).continuousAt).eventually_lt c0 (by
          rw [hc.1 _ hvq, hc.1 _ hv0, hr]
          exact hm.2 y' z' hin hne)
        filter_upwards [this] with t ht _ using ht
      · exact Filter.Eventually.of_forall fun t h' => (hw h').elim
    filter_upwards [hbig, hall] with t h1 h2
    refine poolMax_eq ⟨Set.mem_insert_of_mem _ ⟨y, z, hm.1, by rw [hr]⟩, ?_⟩
    rintro u (rfl | ⟨y', z', hin, rfl⟩)
    · exact h1.le
    · by_cases he : (y', z') = (y, z)
      · obtain ⟨rfl, rfl⟩ := Prod.mk.injEq _ _ _ _ ▸ he
        rw [hr]
      · exact (h2 _ (by simpa using mem_indices.2 (valid4_iff.2 ⟨_, _, _, _, rfl, hi, hj, hin.2.2.1, hin.2.2.2.2.2⟩))
          ⟨y', z', rfl, hin, he⟩).le
  · refine unpool_route hd (dims_poolOut hd hp) f g ninf route ?_
    intro i j oh ow hv
    obtain ⟨_, _, _, _, he, hi, hj, hoh, how⟩ := valid4_iff.1 hv
    simp only [List.cons.injEq, and_true] at he
    obtain ⟨rfl, rfl, rfl, rfl⟩ := he
    obtain ⟨y, z, hr, hm⟩ := hroute _ i j oh ow rfl hv
    obtain ⟨r, h1, h2⟩ := findMax_ofFn (p := p) (s := s) (oh := oh) (ow := ow) hd f ninf (some (ofFn [n, c, h, w] f)) hi hj
    have hvr : ValidIdx [n, c, h, w] [i, j, y, z] := by
      have := hvalid _ hv
      rwa [hr] at this
    rcases h2 with ⟨-, h3⟩ | ⟨y', z', h2, -, h4⟩
    · exact (lt_irrefl _ (lt_of_lt_of_le (hf _ hvr) (h3 _ _ hm.1))).elim
    · have he : (y', z') = (y, z) := by
        by_contra hne
        exact absurd (h4.2.1 _ _ hm.1) (not_le.2 (hm.2 _ _ h4.1 hne))
      obtain ⟨rfl, rfl⟩ := Prod.mk.injEq _ _ _ _ ▸ he
      subst h2
      exact ⟨_, _, _, h1, hr, hvr⟩

end SmartDNN
