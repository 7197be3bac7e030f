import Verif.Props.Views
import Verif.Proofs.MatmulDispatch
import Verif.Spec.Linear

/-!
# C75: products of slice views are products of the windows they show
-/

namespace SmartDNN
open Spec

/-- `v` is a slice view onto the well-formed tensor `A`, made by the constructor with positive steps, and `W` is the
tensor of its elements: it has the view's shape and holds what iterating the view yields. -/
structure Spec.ShowsWindow {T : Type} (v : SView) (A W : Tensor T) : Prop where
  made : ∃ (ds : List Nat) (f : List Nat → T) (slices : List (Int × Int)) (ts : List Nat), Dims ds ∧
    (∀ t ∈ ts, 0 < t) ∧ A = ofFn ds f ∧ SView.make A.shape slices (ints ts) = .ok v
  shape : W.shape = v.shape
  elems : v.toList A.data = .ok W.data

section
variable {T : Type}

theorem showsWindow_elim {v : SView} {A W : Tensor T} (h : ShowsWindow v A W) :
    ∃ (ds ss ts : List Nat) (f : List Nat → T), Dims ds ∧ WinOK ds ss ts ∧ A = ofFn ds f ∧
      v = ⟨shapeOf ds, shapeOf (windowDims ds ss ts), ints ss, ints ts⟩ ∧
      W = ofFn (windowDims ds ss ts) (fun idx => f (windowIdx ss ts idx)) := by
  obtain ⟨⟨ds, f, slices, ts, hd, ht, rfl, hm⟩, hs, he⟩ := h
  have hlen : slices.length = ds.length ∧ ts.length = ds.length := by
    by_contra hc
    have : SView.make (shapeOf ds) slices (ints ts) = .error .runtimeError := by
      refine C19_rejects ds slices (ints ts) ?_
      simp only [ints, List.length_map]
      omega
    rw [ofFn_shape, this] at hm
    exact absurd hm (by simp)
  have hw := winOK_norm hd.pos ht (slices.map Prod.fst) (by simpa using hlen.1) hlen.2
  have hv := sview_make_norm hd ht slices hlen.1 hlen.2
  rw [ofFn_shape, hv] at hm
  simp only [Except.ok.injEq] at hm
  subst hm
  refine ⟨ds, _, ts, f, hd, hw, rfl, rfl, ?_⟩
  rw [sview_toList hd hw f] at he
  simp only [Except.ok.injEq] at he
  obtain ⟨sh, dat⟩ := W
  simp only at hs he
  rw [hs, ← he]
  rfl

/-- Every valid view shows a window. -/
theorem showsWindow_intro (ds ts : List Nat) (hd : Dims ds) (slices : List (Int × Int))
    (hs : slices.length = ds.length) (hl : ts.length = ds.length) (ht : ∀ t ∈ ts, 0 < t) (f : List Nat → T) :
    ∃ v W, SView.make (ofFn ds f).shape slices (ints ts) = .ok v ∧ ShowsWindow v (ofFn ds f) W := by
  obtain ⟨v, h1, h2, h3, _⟩ := C19_window_partial ds ts hd slices hs hl ht f
  exact ⟨v, ⟨v.shape, _⟩, h1, ⟨⟨ds, f, slices, ts, hd, ht, rfl, h1⟩, rfl, h3⟩⟩

variable [Zero T] [Add T] [Mul T]

/-- **C75 (matrix product).**  `matrixMatrixMulSlice` of two rank-2 views returns exactly what `matmul` returns, or
throws, on the two windows copied out as tensors. -/
theorem C75_matmul {a b : SView} {A B V W : Tensor T} (ha : ShowsWindow a A V) (hb : ShowsWindow b B W)
    (h2 : a.shape.rank = 2) (h2' : b.shape.rank = 2)
    (hsz : a.shape.dims.getD 0 0 * b.shape.dims.getD 1 0 < 2 ^ 31) :
    Tensor.matrixMatrixMulSlice a A.data b B.data = V.matmul W := by
  obtain ⟨ds, ss, ts, f, hd, hw, rfl, rfl, rfl⟩ := showsWindow_elim ha
  obtain ⟨es, us, rs, g, he, hw', rfl, rfl, rfl⟩ := showsWindow_elim hb
  have hdw := dims_window hd hw
  have hdw' := dims_window he hw'
  have hr := fun idx hv => sview_read hd hw f (idx := idx) hv
  have hr' := fun idx hv => sview_read he hw' g (idx := idx) hv
  simp only [Shape.rank, shapeOf_dims, ints, List.length_map] at h2 h2'
  have hsz' : (ints (windowDims ds ss ts)).getD 0 0 * (ints (windowDims es us rs)).getD 1 0 < ((2 ^ 31 : Nat) : Int) :=
    hsz
  clear hsz
  revert hdw hdw' hr hr' h2 h2' hsz'
  generalize hL : 2 ^ 31 = L
  generalize windowDims ds ss ts = D
  generalize windowDims es us rs = E
  intro hdw hdw' hr hr' h2 h2' hsz
  match D, E, h2, h2' with
  | [m, k], [k', n], _, _ =>
    rw [matmul_22]
    unfold Tensor.matrixMatrixMulSlice
    rw [if_neg (by simp [Shape.rank])]
    simp only [get0, get1, Except.bind_ok']
    by_cases hk : k = k'
    · subst hk
      rw [if_neg (by simp)]
      have hmn : Dims [m, n] := by
        refine ⟨by simp, ?_, ?_⟩
        · intro d hd'
          simp only [List.mem_cons, List.not_mem_nil, or_false] at hd'
          rcases hd' with rfl | rfl
          · exact hdw.pos _ (by simp)
          · exact hdw'.pos _ (by simp)
        · simp only [ints, List.map_cons, List.map_nil, List.getD_cons_zero, List.getD_cons_succ] at hsz
          simp only [List.prod_cons, List.prod_nil, Nat.mul_one]
          rw [hL]
          exact_mod_cast hsz
      have hm : Shape.make [(m : Int), (n : Int)] = .ok (shapeOf [m, n]) := make_dims hmn
      rw [matrixMatrixMul_ok hmn, hm]
      simp only [Except.bind_ok', full_shapeOf, forI_nat]
      refine (forN_indices2 _ _ _ _ ).trans ?_
      apply foldlM_fill
      intro idx hv r
      obtain ⟨i, j, rfl, hi, hj⟩ := valid2_iff.1 hv
      simp only [List.getD_cons_zero, List.getD_cons_succ]
      rw [sumLoop_ok k _ (fun p => f (windowIdx ss ts [i, p]) * g (windowIdx us rs [p, j]))]
      · simp only [Except.bind_ok']
        rw [set_flat2 r hi hj]
        rfl
      · intro p hp
        have e1 := hr [i, p] (valid2_iff.2 ⟨i, p, rfl, hi, hp⟩)
        have e2 := hr' [p, j] (valid2_iff.2 ⟨p, j, rfl, hp, hj⟩)
        simp only [ints, List.map_cons, List.map_nil] at e1 e2
        simp only [ints] at *
        rw [e1, e2]; rfl
    · rw [matrixMatrixMul_err hk, if_pos (by exact_mod_cast hk)]
      rfl

/-- **C75 (rejection).**  Views that are not both of rank 2 are rejected. -/
theorem C75_rank {a b : SView} {A B V W : Tensor T} (_ : ShowsWindow a A V) (_ : ShowsWindow b B W)
    (h : a.shape.rank ≠ 2 ∨ b.shape.rank ≠ 2) :
    Tensor.matrixMatrixMulSlice a A.data b B.data = .error .invalidArgument := by
  unfold Tensor.matrixMatrixMulSlice
  rw [if_pos h]
  rfl

/-- **C75 (dot product).**  `dotProductSlice` of two views of the same shape is the sum, in row-major order, of the
products of the corresponding elements they show; for views of rank 1 this is what `matmul` returns for the two
windows.  Views of different shapes are rejected with `std::invalid_argument`. -/
theorem C75_dot {a b : SView} {A B V W : Tensor T} (ha : ShowsWindow a A V) (hb : ShowsWindow b B W) :
    (V.shape.dims = W.shape.dims →
      Tensor.dotProductSlice a A.data b B.data = .ok (lsum (List.zipWith (· * ·) V.data W.data)) ∧
      (V.shape.rank = 1 → V.matmul W = .ok (ofFn [1] (fun _ => lsum (List.zipWith (· * ·) V.data W.data))))) ∧
    (V.shape.dims ≠ W.shape.dims →
      Tensor.dotProductSlice a A.data b B.data = .error .invalidArgument) := by
  refine ⟨fun h => ⟨?_, fun h1 => ?_⟩, fun h => ?_⟩
  · unfold Tensor.dotProductSlice
    rw [if_neg (by rw [← ha.shape, ← hb.shape]; simp [Shape.beq, h]), ha.elems, hb.elems]
    rfl
  · obtain ⟨ds, ss, ts, f, hd, hw, rfl, rfl, rfl⟩ := showsWindow_elim ha
    obtain ⟨es, us, rs, g, he, hw', rfl, rfl, rfl⟩ := showsWindow_elim hb
    have hdw := dims_window hd hw
    generalize windowDims ds ss ts = D at *
    generalize windowDims es us rs = E at *
    have h' : D = E := by
      simp only [ofFn_shape, shapeOf_dims] at h
      exact ints_inj h
    subst h'
    simp only [ofFn_shape, Shape.rank, shapeOf_dims, ints, List.length_map] at h1
    match D, h1 with
    | [n], _ =>
      rw [matmul_11, dotProduct_ok]
      congr 2
      funext _
      unfold dot
      congr 1
      show _ = List.zipWith _ ((indices [n]).map _) ((indices [n]).map _)
      rw [indices_one, List.map_map, List.map_map, List.zipWith_map, List.zipWith_self]
      rfl
  · unfold Tensor.dotProductSlice
    rw [if_pos (by rw [← ha.shape, ← hb.shape]; simp [Shape.beq, h])]
    rfl

/-- Rows 0 and 2 of a 3x4 matrix against the last two columns of a 4x3 matrix: hypotheses met. -/
example : ∃ a b V W, ShowsWindow a (ofFn [3, 4] (fun i => (i.sum : ℤ))) V ∧
    ShowsWindow b (ofFn [4, 3] (fun i => (i.prod : ℤ))) W ∧ a.shape.dims = [2, 4] ∧ b.shape.dims = [4, 2] := by
  have hd : Dims [3, 4] := ⟨by simp, by simp, by simp⟩
  have he : Dims [4, 3] := ⟨by simp, by simp, by simp⟩
  obtain ⟨a, V, h1, h2⟩ := showsWindow_intro [3, 4] [2, 1] hd [(0, 3), (0, 4)] rfl rfl (by simp)
    (fun i => (i.sum : ℤ))
  obtain ⟨b, W, h3, h4⟩ := showsWindow_intro [4, 3] [1, 1] he [(0, 4), (-2, 3)] rfl rfl (by simp)
    (fun i => (i.prod : ℤ))
  refine ⟨a, b, V, W, h2, h4, ?_, ?_⟩
  · have : SView.make (ofFn [3, 4] (fun i => (i.sum : ℤ))).shape [(0, 3), (0, 4)] (ints [2, 1]) =
      .ok ⟨shapeOf [3, 4], shapeOf [2, 4], [0, 0], [2, 1]⟩ := rfl
    rw [this] at h1
    simp only [Except.ok.injEq] at h1
    rw [← h1]; rfl
  · have : SView.make (ofFn [4, 3] (fun i => (i.prod : ℤ))).shape [(0, 4), (-2, 3)] (ints [1, 1]) =
      .ok ⟨shapeOf [4, 3], shapeOf [4, 2], [0, 1], [1, 1]⟩ := rfl
    rw [this] at h3
    simp only [Except.ok.injEq] at h3
    rw [← h3]; rfl

end
end SmartDNN
