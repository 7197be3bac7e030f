import Verif.Proofs.Im2col
import Verif.Props.Linear
import Verif.Proofs.Reshape

/-!
# `im2col` and `col2im` (C64)
-/

namespace SmartDNN
open Spec

theorem list_sum_pick {T α : Type _} [AddCommMonoid T] [DecidableEq α] {L : List α} (hL : L.Nodup) {a : α}
    (ha : a ∈ L) (f : α → T) : (L.map (fun i => if i = a then f i else 0)).sum = f a := by
  induction L with
  | nil => simp at ha
  | cons b L ih =>
    rw [List.nodup_cons] at hL
    simp only [List.map_cons, List.sum_cons]
    by_cases h : b = a
    · subst h
      rw [if_pos rfl]
      have : (L.map (fun i => if i = b then f i else 0)).sum = 0 := by
        apply List.sum_eq_zero
        intro x hx
        obtain ⟨i, hi, rfl⟩ := List.mem_map.1 hx
        rw [if_neg (by rintro rfl; exact hL.1 hi)]
      rw [this, add_zero]
    · rw [if_neg h, zero_add]
      exact ih hL.2 (by rcases List.mem_cons.1 ha with h1 | h1; exacts [absurd h1.symm h, h1])

theorem sum_map_filter_ite {T α : Type _} [AddCommMonoid T] (L : List α) (q : α → Bool) (f : α → T) :
    ((L.filter q).map f).sum = (L.map (fun x => if q x = true then f x else 0)).sum := by
  induction L with
  | nil => rfl
  | cons a L ih =>
    by_cases h : q a = true
    · simp [h, ih]
    · simp [h, ih]

theorem lsum_indices_cons {T : Type _} [AddCommMonoid T] (d : Nat) (ds : List Nat) (f : List Nat → T) :
    ((indices (d :: ds)).map f).sum = ∑ i ∈ Finset.range d, ((indices ds).map (fun x => f (i :: x))).sum := by
  rw [← List.toFinset_range, List.sum_toFinset _ List.nodup_range]
  simp only [indices]
  induction List.range d with
  | nil => simp
  | cons a l ih => simp [ih, List.map_append, List.sum_append, Function.comp_def]

theorem lsum_indices_nil {T : Type _} [AddCommMonoid T] (f : List Nat → T) : ((indices []).map f).sum = f [] := by
  simp [indices]

/-- The positions written by the unfolding loop are all the positions of the matrix, each exactly once. -/
theorem colPos_perm (N C KH KW OH OW : Nat) :
    ((indices [N, C, KH, KW, OH, OW]).map (colPos KH KW OH OW)).Perm (indices [C * KH * KW, OH * OW * N]) := by
  rw [List.perm_ext_iff_of_nodup _ (nodup_indices _)]
  · intro j
    rw [List.mem_map, mem_indices]
    constructor
    · rintro ⟨idx, hi, rfl⟩
      exact colPos_valid (mem_indices.1 hi)
    · intro hj
      obtain ⟨r, q, rfl, hr, hq⟩ := valid2_iff.1 hj
      obtain ⟨a, ha, ra, _⟩ := exists_idx_of_lt (ds := [C, KH, KW]) (k := r) (by simpa [mul_assoc] using hr)
      obtain ⟨b, hb, rb, _⟩ := exists_idx_of_lt (ds := [N, OH, OW]) (k := q) (by
        simp only [List.prod_cons, List.prod_nil, Nat.mul_one]
        rwa [mul_comm])
      obtain ⟨c, ky, kx, rfl, h1, h2, h3⟩ := valid3_iff.1 ha
      obtain ⟨n, oy, ox, rfl, h4, h5, h6⟩ := valid3_iff.1 hb
      refine ⟨[n, c, ky, kx, oy, ox], mem_indices.2 (valid6_iff.2 ⟨_, _, _, _, _, _, rfl, h4, h1, h2, h3, h5, h6⟩), ?_⟩
      rw [colRow_eq] at ra
      rw [colCol_eq] at rb
      simp only [colPos, List.getD_cons_zero, List.getD_cons_succ, ra, rb]
  · exact List.Nodup.map_on (fun a ha b hb h => colPos_inj (mem_indices.1 ha) (mem_indices.1 hb) h) (nodup_indices _)

theorem windows_colDim {len k out : Nat} {s p d : Int} (h : Windows len k s p d out) (ho : 0 < out) :
    Conv.colDim len k s p d = .ok (out : Int) := by
  obtain ⟨hs, hk, h⟩ := h
  have h1 := (h (out - 1)).1 (by omega)
  have h2 := mt (h out).2 (lt_irrefl _)
  unfold tap at h1 h2
  rw [show ((out - 1 : Nat) : Int) = out - 1 by omega, show ((k - 1 : Nat) : Int) = (k : Int) - 1 by omega] at h1
  rw [show ((k - 1 : Nat) : Int) = (k : Int) - 1 by omega] at h2
  unfold Conv.colDim
  rw [if_neg hs.ne']
  congr 1
  have e : (out : Int) - 1 = ((len : Int) + 2 * p - d * (k - 1) - 1) / s := by
    symm
    rw [Int.ediv_eq_iff_of_pos hs]
    constructor <;> nlinarith
  have hq : 0 ≤ (len : Int) + 2 * p - d * (k - 1) - 1 := by
    have : 0 ≤ ((out : Int) - 1) * s := mul_nonneg (by omega) hs.le
    nlinarith
  rw [Int.tdiv_eq_ediv_of_nonneg hq, ← e]
  omega

theorem windows_rows {N C H KH KW OH OW : Nat} {s p d : Int} (hm : Dims [C * KH * KW, OH * OW * N]) (h : Windows H KH s p d OH) :
    Conv.colDim H KH s p d = .ok (OH : Int) :=
  windows_colDim h (by
    have := hm.pos (OH * OW * N) (by simp)
    rcases Nat.eq_zero_or_pos OH with rfl | h
    · simp at this
    · exact h)

theorem windows_cols {N C W KH KW OH OW : Nat} {s p d : Int} (hm : Dims [C * KH * KW, OH * OW * N]) (h : Windows W KW s p d OW) :
    Conv.colDim W KW s p d = .ok (OW : Int) :=
  windows_colDim h (by
    have := hm.pos (OH * OW * N) (by simp)
    rcases Nat.eq_zero_or_pos OW with rfl | h
    · simp at this
    · exact h)

/-- **C64 (im2col).**  Row `(c, ky, kx)`, column `(n, oy, ox)` of the unfolded matrix is the zero-imagePadded input
element `(n, c, oy*stride + ky*dilation - padding, ox*stride + kx*dilation - padding)`, for every size, stride,
padding and dilation that give at least one window. -/
theorem C64_im2col {T : Type} [Zero T] {N C H W KH KW OH OW : Nat} {s p d : Int}
    (hm : Dims [C * KH * KW, OH * OW * N]) (hoh : Windows H KH s p d OH)
    (how : Windows W KW s p d OW) (f : List Nat → T) :
    ∃ g, Conv.im2col (ofFn [N, C, H, W] f) KH KW s p d = .ok (ofFn [C * KH * KW, OH * OW * N] g) ∧
      ∀ n < N, ∀ c < C, ∀ ky < KH, ∀ kx < KW, ∀ oy < OH, ∀ ox < OW,
        g [colRow KH KW c ky kx, colCol OH OW n oy ox] = imagePadded H W f n c (tap s p d oy ky) (tap s p d ox kx) := by
  refine ⟨_, im2col_fold hm (windows_rows hm hoh) (windows_cols hm how) f, ?_⟩
  intro n hn c hc ky hky kx hkx oy hoy ox hox
  have := foldl_upd_inj (indices [N, C, KH, KW, OH, OW]) (colPos KH KW OH OW)
    (fun idx => if colIn H W s p d idx then f (colSrc s p d idx) else 0) (fun _ => 0)
    (fun a ha b hb h => colPos_inj (mem_indices.1 ha) (mem_indices.1 hb) h) [n, c, ky, kx, oy, ox]
    (mem_indices.2 (valid6_iff.2 ⟨_, _, _, _, _, _, rfl, hn, hc, hky, hkx, hoy, hox⟩))
  exact this

/-- Every entry of the unfolded matrix is covered by the previous statement. -/
theorem colPos_covers {N C KH KW OH OW : Nat} {j : List Nat} (hj : ValidIdx [C * KH * KW, OH * OW * N] j) :
    ∃ n < N, ∃ c < C, ∃ ky < KH, ∃ kx < KW, ∃ oy < OH, ∃ ox < OW,
      j = [colRow KH KW c ky kx, colCol OH OW n oy ox] := by
  have := (colPos_perm N C KH KW OH OW).mem_iff.2 (mem_indices.2 hj)
  obtain ⟨idx, hi, rfl⟩ := List.mem_map.1 this
  obtain ⟨n, c, ky, kx, oy, ox, rfl, h1, h2, h3, h4, h5, h6⟩ := valid6_iff.1 (mem_indices.1 hi)
  exact ⟨n, h1, c, h2, ky, h3, kx, h4, oy, h5, ox, h6, rfl⟩

/-- **C64 (col2im).**  Element `(n, c, y, x)` of the folded image is the sum of all matrix entries
`((c, ky, kx), (n, oy, ox))` whose window position is `(y, x)`: the transpose of `im2col`. -/
theorem C64_col2im {T : Type} [AddCommMonoid T] {N C H W KH KW OH OW : Nat} {s p d : Int}
    (hm : Dims [C * KH * KW, OH * OW * N]) (hoh : Windows H KH s p d OH)
    (how : Windows W KW s p d OW) (g : List Nat → T) :
    ∃ f, Conv.col2im (ofFn [C * KH * KW, OH * OW * N] g) (shapeOf [N, C, H, W]) KH KW s p d =
        .ok (ofFn [N, C, H, W] f) ∧
      ∀ n < N, ∀ c < C, ∀ y < H, ∀ x < W, f [n, c, y, x] =
        ∑ ky ∈ Finset.range KH, ∑ kx ∈ Finset.range KW, ∑ oy ∈ Finset.range OH, ∑ ox ∈ Finset.range OW,
          if tap s p d oy ky = y ∧ tap s p d ox kx = x then g [colRow KH KW c ky kx, colCol OH OW n oy ox] else 0 := by
  refine ⟨_, col2im_fold hm (windows_rows hm hoh) (windows_cols hm how) g, ?_⟩
  intro n hn c hc y hy x hx
  rw [foldl_upd_acc _ (colSrc s p d) (fun a idx => a + g (colPos KH KW OH OW idx)), foldl_add_sum, zero_add,
    List.filter_filter, sum_map_filter_ite]
  simp only [lsum_indices_cons, lsum_indices_nil]
  rw [Finset.sum_eq_single n]
  · rw [Finset.sum_eq_single c]
    · refine Finset.sum_congr rfl fun ky _ => Finset.sum_congr rfl fun kx _ => Finset.sum_congr rfl fun oy _ =>
        Finset.sum_congr rfl fun ox _ => ?_
      refine if_congr ?_ rfl rfl
      simp only [colSrc, colIn, List.getD_cons_zero, List.getD_cons_succ, Bool.and_eq_true, decide_eq_true_eq,
        List.cons.injEq, and_true, true_and]
      constructor
      · rintro ⟨⟨h1, h2⟩, h3, h4, h5, h6⟩
        omega
      · rintro ⟨h1, h2⟩
        omega
    · intro c' _ hne
      refine Finset.sum_eq_zero fun ky _ => Finset.sum_eq_zero fun kx _ => Finset.sum_eq_zero fun oy _ =>
        Finset.sum_eq_zero fun ox _ => ?_
      rw [if_neg]
      simp [colSrc, hne]
    · intro h; exact absurd (Finset.mem_range.2 hc) h
  · intro n' _ hne
    refine Finset.sum_eq_zero fun c' _ => Finset.sum_eq_zero fun ky _ => Finset.sum_eq_zero fun kx _ =>
      Finset.sum_eq_zero fun oy _ => Finset.sum_eq_zero fun ox _ => ?_
    rw [if_neg]
    simp [colSrc, hne]
  · intro h; exact absurd (Finset.mem_range.2 hn) h

/-- **C64 (adjointness).**  `⟨im2col f, g⟩ = ⟨f, col2im g⟩` for all images `f` and matrices `g`. -/
theorem C64_adjoint {T : Type} [CommSemiring T] {N C H W KH KW OH OW : Nat} {s p d : Int}
    (hm : Dims [C * KH * KW, OH * OW * N]) (hoh : Windows H KH s p d OH)
    (how : Windows W KW s p d OW) (f g : List Nat → T) :
    ∃ f' g', Conv.im2col (ofFn [N, C, H, W] f) KH KW s p d = .ok (ofFn [C * KH * KW, OH * OW * N] g') ∧
      Conv.col2im (ofFn [C * KH * KW, OH * OW * N] g) (shapeOf [N, C, H, W]) KH KW s p d =
        .ok (ofFn [N, C, H, W] f') ∧
      ((indices [C * KH * KW, OH * OW * N]).map (fun i => g' i * g i)).sum =
        ((indices [N, C, H, W]).map (fun j => f j * f' j)).sum := by
  refine ⟨_, _, im2col_fold hm (windows_rows hm hoh) (windows_cols hm how) f, col2im_fold hm (windows_rows hm hoh) (windows_cols hm how) g, ?_⟩
  rw [← ((colPos_perm N C KH KW OH OW).map _).sum_eq, List.map_map]
  have e1 : ((indices [N, C, KH, KW, OH, OW]).map ((fun i => List.foldl (fun g idx => upd g (colPos KH KW OH OW idx)
        (if colIn H W s p d idx then f (colSrc s p d idx) else 0)) (fun _ => 0) (indices [N, C, KH, KW, OH, OW]) i * g i) ∘
          colPos KH KW OH OW)) =
      (indices [N, C, KH, KW, OH, OW]).map (fun idx =>
        if decide (colIn H W s p d idx) = true then f (colSrc s p d idx) * g (colPos KH KW OH OW idx) else 0) := by
    apply List.map_congr_left
    intro idx hi
    simp only [Function.comp]
    rw [foldl_upd_inj (indices [N, C, KH, KW, OH, OW]) (colPos KH KW OH OW)
      (fun idx => if colIn H W s p d idx then f (colSrc s p d idx) else 0) (fun _ => 0)
      (fun a ha b hb h => colPos_inj (mem_indices.1 ha) (mem_indices.1 hb) h) idx hi]
    by_cases h : colIn H W s p d idx
    · simp [h]
    · simp [h]
  rw [e1, ← sum_map_filter_ite]
  have e2 : ∀ j, f j * ((indices [N, C, KH, KW, OH, OW]).filter (fun idx => decide (colIn H W s p d idx))).foldl
        (fun f idx => upd f (colSrc s p d idx) (f (colSrc s p d idx) + g (colPos KH KW OH OW idx))) (fun _ => 0) j =
      (((indices [N, C, KH, KW, OH, OW]).filter (fun idx => decide (colIn H W s p d idx))).map
        (fun idx => if j = colSrc s p d idx then f j * g (colPos KH KW OH OW idx) else 0)).sum := by
    intro j
    rw [foldl_upd_acc _ (colSrc s p d) (fun a idx => a + g (colPos KH KW OH OW idx)), foldl_add_sum, zero_add,
      sum_map_filter_ite, ← List.sum_map_mul_left]
    congr 1
    apply List.map_congr_left
    intro idx _
    by_cases h : j = colSrc s p d idx
    · simp [h]
    · simp [h, Ne.symm h]
  simp only [e2]
  rw [sum_comm']
  congr 1
  apply List.map_congr_left
  intro idx hi
  rw [List.mem_filter] at hi
  have hv := colSrc_valid (mem_indices.1 hi.1) (of_decide_eq_true hi.2)
  rw [list_sum_pick (nodup_indices _) (mem_indices.2 hv) (fun j => f j * g (colPos KH KW OH OW idx))]

/-- **C64 (convolution).**  Multiplying the kernels, laid out as one row per output channel, by the unfolded
input is the imagePadded, strided, dilated multi-channel convolution: entry `(o, (n, oy, ox))` is the sum over all
input channels and kernel positions of `w(o,c,ky,kx)` times the zero-imagePadded input. -/
theorem C64_convolution {T : Type} [Semiring T] {N C H W O KH KW OH OW : Nat} {s p d : Int}
    (hm : Dims [C * KH * KW, OH * OW * N]) (hw : Dims [O, C * KH * KW]) (ho : Dims [O, OH * OW * N])
    (hoh : Windows H KH s p d OH)
    (how : Windows W KW s p d OW) (f w : List Nat → T) :
    ∃ r, (do
        let km ← (ofFn [O, C, KH, KW] w).reshape [(O : Int), ((C * KH * KW : Nat) : Int)]
        let cols ← Conv.im2col (ofFn [N, C, H, W] f) KH KW s p d
        km.matmul cols) = .ok (ofFn [O, OH * OW * N] r) ∧
      ∀ o < O, ∀ n < N, ∀ oy < OH, ∀ ox < OW, r [o, colCol OH OW n oy ox] =
        ∑ c ∈ Finset.range C, ∑ ky ∈ Finset.range KH, ∑ kx ∈ Finset.range KW,
          w [o, c, ky, kx] * imagePadded H W f n c (tap s p d oy ky) (tap s p d ox kx) := by
  obtain ⟨g, hg, hgv⟩ := C64_im2col hm hoh how f
  have hre : (ofFn [O, C, KH, KW] w).reshape (ints [O, C * KH * KW]) =
      .ok ⟨shapeOf [O, C * KH * KW], (ofFn [O, C, KH, KW] w).data⟩ :=
    reshaped_eq (ds := [O, C, KH, KW]) _ rfl hw (by simp [mul_assoc])
  obtain ⟨w', hw'⟩ := exists_ofFn (t := (⟨shapeOf [O, C * KH * KW], (ofFn [O, C, KH, KW] w).data⟩ : Tensor T)) hw rfl
    (by rw [ofFn_data]; simp [mul_assoc])
  rw [hw'] at hre
  have hwv : ∀ o < O, ∀ c < C, ∀ ky < KH, ∀ kx < KW, w' [o, colRow KH KW c ky kx] = w [o, c, ky, kx] := by
    intro o ho c hc ky hky kx hkx
    have h1 := ofFn_getElem? [O, C * KH * KW] w' (valid2_iff.2 ⟨o, _, rfl, ho, colRow_lt hc hky hkx⟩)
    have h2 := ofFn_getElem? [O, C, KH, KW] w (valid4_iff.2 ⟨o, c, ky, kx, rfl, ho, hc, hky, hkx⟩)
    rw [← hw'] at h1
    have e : ravel [O, C * KH * KW] [o, colRow KH KW c ky kx] = ravel [O, C, KH, KW] [o, c, ky, kx] := by
      simp only [ravel, List.prod_cons, List.prod_nil, colRow]
      ring
    rw [e] at h1
    exact Option.some.inj (h1.symm.trans h2)
  refine ⟨fun idx => dot (C * KH * KW) (fun q => w' [idx.getD 0 0, q]) (fun q => g [q, idx.getD 1 0]), ?_, ?_⟩
  · simp only [ints, List.map_cons, List.map_nil] at hre
    rw [hre]
    simp only [Except.bind_ok', hg]
    exact C15_product O (C * KH * KW) (OH * OW * N) ho w' g
  · intro o ho' n hn oy hoy ox hox
    simp only [List.getD_cons_zero, List.getD_cons_succ]
    rw [dot_eq_sum]
    have e : (∑ q ∈ Finset.range (C * KH * KW), w' [o, q] * g [q, colCol OH OW n oy ox]) =
        ((indices [C, KH, KW]).map (fun idx => w' [o, ravel [C, KH, KW] idx] *
          g [ravel [C, KH, KW] idx, colCol OH OW n oy ox])).sum := by
      have : (indices [C, KH, KW]).map (fun idx => w' [o, ravel [C, KH, KW] idx] *
          g [ravel [C, KH, KW] idx, colCol OH OW n oy ox]) =
          (List.range (C * KH * KW)).map (fun q => w' [o, q] * g [q, colCol OH OW n oy ox]) := by
        apply List.ext_getElem (by simp [mul_assoc])
        intro k h1 h2
        have hk : k < [C, KH, KW].prod := by simpa using h1
        obtain ⟨idx, hv, hr, hi⟩ := exists_idx_of_lt hk
        rw [List.getElem?_eq_getElem (by simpa using hk)] at hi
        simp only [List.getElem_map, List.getElem_range]
        rw [Option.some.inj hi, hr]
      rw [this, ← List.toFinset_range, List.sum_toFinset _ List.nodup_range]
    rw [e]
    simp only [lsum_indices_cons, lsum_indices_nil, colRow_eq]
    refine Finset.sum_congr rfl fun c hc => Finset.sum_congr rfl fun ky hky => Finset.sum_congr rfl fun kx hkx => ?_
    rw [Finset.mem_range] at hc hky hkx
    rw [hwv o ho' c hc ky hky kx hkx, hgv n hn c hc ky hky kx hkx oy hoy ox hox]

/-- Geometry of the examples: a batch of 2 images with 2 channels of 3x4, 2x2 kernels, stride 2, padding 1,
dilation 2: 2 x 2 windows. -/
theorem windows_example : Windows 3 2 2 1 2 2 ∧ Windows 4 2 2 1 2 2 := by
  refine ⟨⟨by norm_num, by norm_num, fun o => ?_⟩, ⟨by norm_num, by norm_num, fun o => ?_⟩⟩ <;> unfold tap <;> (push_cast; omega)

example : ∃ g, Conv.im2col (ofFn [2, 2, 3, 4] (fun i => (i.sum : ℤ))) ((2 : ℕ) : ℤ) ((2 : ℕ) : ℤ) 2 1 2 =
    .ok (ofFn [8, 8] g) :=
  let ⟨g, hg, _⟩ := C64_im2col (N := 2) (C := 2) (H := 3) (W := 4) (KH := 2) (KW := 2) (OH := 2) (OW := 2)
    (s := 2) (p := 1) (d := 2) ⟨by simp, by simp, by norm_num⟩ windows_example.1 windows_example.2
    (fun i => (i.sum : ℤ))
  ⟨g, hg⟩

example : ∃ f' g', Conv.im2col (ofFn [2, 2, 3, 4] (fun i => (i.sum : ℤ))) ((2 : ℕ) : ℤ) ((2 : ℕ) : ℤ) 2 1 2 =
      .ok (ofFn [8, 8] g') ∧
    Conv.col2im (ofFn [8, 8] (fun i => (i.prod : ℤ))) (shapeOf [2, 2, 3, 4]) ((2 : ℕ) : ℤ) ((2 : ℕ) : ℤ) 2 1 2 =
      .ok (ofFn [2, 2, 3, 4] f') :=
  let ⟨f', g', h1, h2, _⟩ := C64_adjoint (N := 2) (C := 2) (H := 3) (W := 4) (KH := 2) (KW := 2) (OH := 2) (OW := 2)
    (s := 2) (p := 1) (d := 2) ⟨by simp, by simp, by norm_num⟩ windows_example.1 windows_example.2
    (fun i => (i.sum : ℤ)) (fun i => (i.prod : ℤ))
  ⟨f', g', h1, h2⟩

/-- **C64 (division by zero).**  A stride of zero is undefined behaviour in both functions. -/
theorem C64_stride_zero {T : Type} [Zero T] [Add T] {N C H W : Nat} (kh kw p d : Int) (f : List Nat → T) (g : Tensor T) :
    Conv.im2col (ofFn [N, C, H, W] f) kh kw 0 p d = .error .ub ∧
      Conv.col2im g (shapeOf [N, C, H, W]) kh kw 0 p d = .error .ub := ⟨rfl, rfl⟩

/-- **C64 (a window too many).**  If not even the first window fits, but it exceeds the padded image by less than the stride in
both directions, the truncated division still yields one window per image, and `im2col` unfolds it. -/
theorem C64_oversized {T : Type} [Zero T] {N C H W KH KW : Nat} {s p d : Int} (hm : Dims [C * KH * KW, 1 * 1 * N])
    (hh : Windows H KH s p d 0) (hw : Windows W KW s p d 0) (hh1 : tap s p d 0 (KH - 1) < H + p + s - 1)
    (hw1 : tap s p d 0 (KW - 1) < W + p + s - 1) (f : List Nat → T) :
    ∃ g, Conv.im2col (ofFn [N, C, H, W] f) KH KW s p d = .ok (ofFn [C * KH * KW, 1 * 1 * N] g) := by
  have one : ∀ {len k : Nat}, Windows len k s p d 0 → tap s p d 0 (k - 1) < len + p + s - 1 →
      Conv.colDim len k s p d = .ok ((1 : Nat) : Int) := by
    intro len k h h1
    obtain ⟨hs, hk, h⟩ := h
    have h2 := mt (h 0).2 (lt_irrefl _)
    unfold tap at h1 h2
    rw [show ((k - 1 : Nat) : Int) = (k : Int) - 1 by omega, Nat.cast_zero, zero_mul, mul_comm] at h1 h2
    unfold Conv.colDim
    rw [if_neg hs.ne']
    have e : ((len : Int) + 2 * p - d * (k - 1) - 1).tdiv s = 0 := by
      rw [← neg_neg ((len : Int) + 2 * p - d * (k - 1) - 1), Int.neg_tdiv, Int.tdiv_eq_zero_of_lt (by linarith [not_lt.1 h2]) (by linarith)]
      rfl
    rw [e]
    rfl
  exact ⟨_, im2col_fold hm (one hh hh1) (one hw hw1) f⟩

/-- An image of 1x1 and a kernel of 2x2 with stride 3. -/
example : Windows 1 2 3 0 1 0 ∧ tap 3 0 1 0 (2 - 1) < (1 : Nat) + 0 + 3 - 1 := by
  refine ⟨⟨by norm_num, by norm_num, fun o => ?_⟩, ?_⟩ <;> unfold tap
  · push_cast
    omega
  · norm_num

end SmartDNN
