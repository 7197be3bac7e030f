import Verif.Props.Parallel
import Verif.Props.SliceProducts
import Verif.Proofs.Im2col

/-!
# C61 (continued): the parallel loops of `im2col`, `col2im` and `matrixMatrixMulSlice`
-/

namespace SmartDNN
open Spec

section
variable {L V : Type} [DecidableEq L] {body : Nat → Prog L V} {n : Nat} {A W : Nat → L → Prop} {mem0 memF : Mem L V}

/-- It is enough to run every iteration alone and all of them in sequence. -/
theorem alwaysGives_of_sequential (hD : Disjoint' body n A W) (hrun : ∀ i < n, ∃ r, (body i).run mem0 = .ok r)
    (hseq : forN n mem0 (fun i m => (body i).run m) = .ok memF) : AlwaysGives mem0 body n memF := by
  classical
  choose! r hr using hrun
  let memM : Mem L V := fun l => if h : ∃ i, i < n ∧ W i l then r h.choose l else mem0 l
  have hM : Merged body n W mem0 memM := by
    refine ⟨fun i hi => ⟨r i, hr i hi, fun l hl => ?_⟩, fun l hl => ?_⟩
    · have h : ∃ i, i < n ∧ W i l := ⟨i, hi, hl⟩
      show (if h : ∃ i, i < n ∧ W i l then r h.choose l else mem0 l) = _
      rw [dif_pos h]
      have hc := h.choose_spec
      have : h.choose = i := by
        by_contra hne
        exact hD.apart i hi _ hc.1 (Ne.symm hne) l hl (hD.sub _ hc.1 l hc.2)
      rw [this]
    · exact dif_neg (by rintro ⟨i, hi, hw⟩; exact hl i hi hw)
  have := sequential_correct hD hM
  rw [hseq] at this
  simp only [Except.ok.injEq] at this
  rw [this]
  exact alwaysGives_of hD hM

omit [DecidableEq L] in
theorem threadProg_within_all {A W : L → Prop} {body : Nat → Prog L V} : ∀ (is : List Nat),
    (∀ i ∈ is, (body i).Within A W) → (threadProg body is).Within A W
  | [], _ => trivial
  | i :: is, h => Prog.Within.seq (threadProg_within_all is (fun j hj => h j (by simp [hj]))) (h i (by simp))

theorem threadProg_fold {σ : Type _} (St : σ → Mem L V) (u : σ → Nat → σ) : ∀ (is : List Nat) (s : σ),
    (∀ i ∈ is, ∀ s, (body i).run (St s) = .ok (St (u s i))) → (threadProg body is).run (St s) = .ok (St (is.foldl u s))
  | [], _, _ => rfl
  | i :: is, s, h => by
    show ((body i).seq (threadProg body is)).run _ = _
    rw [Prog.run_seq, h i (by simp) s]
    exact threadProg_fold St u is _ (fun j hj => h j (by simp [hj]))

end

theorem foldl_indices_cons {σ : Type _} (d : Nat) (ds : List Nat) (u : σ → List Nat → σ) (s : σ) :
    (indices (d :: ds)).foldl u s =
      (List.range d).foldl (fun s i => (indices ds).foldl (fun s is => u s (i :: is)) s) s := by
  simp only [indices]
  generalize List.range d = l
  induction l generalizing s with
  | nil => rfl
  | cons i l ih =>
    rw [List.flatMap_cons, List.foldl_append, List.foldl_cons, List.foldl_map]
    exact ih _

theorem foldl_indices_nil {σ : Type _} (u : σ → List Nat → σ) (s : σ) : (indices []).foldl u s = u s [] := by
  simp [indices]

/-- Numbering pairs as `i * b + j`. -/
theorem foldl_range_mul {σ : Type _} (a b : Nat) (u : σ → Nat → σ) (s : σ) :
    (List.range (a * b)).foldl u s =
      (List.range a).foldl (fun s i => (List.range b).foldl (fun s j => u s (i * b + j)) s) s := by
  induction a with
  | zero => simp
  | succ a ih =>
    rw [Nat.succ_mul, List.range_add, List.foldl_append, ih, List.range_succ, List.foldl_append, List.foldl_map]
    rfl

section
variable {T : Type}

theorem windowLoops_run {σ : Type _} (St : σ → Mem Loc T) {C KH KW OH OW : Nat}
    {step : Nat → Nat → Nat → Nat → Nat → Nat → Prog Loc T} (u : σ → List Nat → σ) (q : Nat)
    (h : ∀ kh < KH, ∀ kw < KW, ∀ oh < OH, ∀ ow < OW, ∀ s,
      (step (q / C) (q % C) kh kw oh ow).run (St s) = .ok (St (u s [q / C, q % C, kh, kw, oh, ow]))) (s : σ) :
    (windowLoops C KH KW OH OW step q).run (St s) =
      .ok (St ((indices [KH, KW, OH, OW]).foldl (fun s is => u s (q / C :: q % C :: is)) s)) := by
  simp only [foldl_indices_cons, foldl_indices_nil]
  unfold windowLoops
  refine threadProg_fold St _ _ _ (fun kh h1 s => ?_)
  refine threadProg_fold St _ _ _ (fun kw h2 s => ?_)
  refine threadProg_fold St _ _ _ (fun oh h3 s => ?_)
  refine threadProg_fold St _ _ _ (fun ow h4 s => ?_)
  rw [List.mem_range] at h1 h2 h3 h4
  exact h kh h1 kw h2 oh h3 ow h4 s

theorem windowLoops_within {A W : Loc → Prop} {C KH KW OH OW : Nat}
    {step : Nat → Nat → Nat → Nat → Nat → Nat → Prog Loc T} (q : Nat)
    (h : ∀ kh < KH, ∀ kw < KW, ∀ oh < OH, ∀ ow < OW, (step (q / C) (q % C) kh kw oh ow).Within A W) :
    (windowLoops C KH KW OH OW step q).Within A W := by
  unfold windowLoops
  refine threadProg_within_all _ (fun kh h1 => ?_)
  refine threadProg_within_all _ (fun kw h2 => ?_)
  refine threadProg_within_all _ (fun oh h3 => ?_)
  refine threadProg_within_all _ (fun ow h4 => ?_)
  rw [List.mem_range] at h1 h2 h3 h4
  exact h kh h1 kw h2 oh h3 ow h4

theorem windowLoops_seq {σ : Type _} (St : σ → Mem Loc T) {N C KH KW OH OW : Nat}
    {step : Nat → Nat → Nat → Nat → Nat → Nat → Prog Loc T} (u : σ → List Nat → σ)
    (h : ∀ idx, ValidIdx [N, C, KH, KW, OH, OW] idx → ∀ s,
      (step (idx.getD 0 0) (idx.getD 1 0) (idx.getD 2 0) (idx.getD 3 0) (idx.getD 4 0) (idx.getD 5 0)).run (St s) =
        .ok (St (u s idx))) (s : σ) :
    (∀ q < N * C, ∃ r, (windowLoops C KH KW OH OW step q).run (St s) = .ok r) ∧
    forN (N * C) (St s) (fun q m => (windowLoops C KH KW OH OW step q).run m) =
      .ok (St ((indices [N, C, KH, KW, OH, OW]).foldl u s)) := by
  have key : ∀ q < N * C, ∀ s, (windowLoops C KH KW OH OW step q).run (St s) =
      .ok (St ((indices [KH, KW, OH, OW]).foldl (fun s is => u s (q / C :: q % C :: is)) s)) := by
    intro q hq s
    have hC : 0 < C := by
      rcases Nat.eq_zero_or_pos C with rfl | h
      · simp at hq
      · exact h
    refine windowLoops_run St u q (fun kh h1 kw h2 oh h3 ow h4 s => ?_) s
    exact h [q / C, q % C, kh, kw, oh, ow] (valid6_iff.2 ⟨_, _, _, _, _, _, rfl,
      (Nat.div_lt_iff_lt_mul hC).2 hq, Nat.mod_lt _ hC, h1, h2, h3, h4⟩) s
  refine ⟨fun q hq => ⟨_, key q hq s⟩, ?_⟩
  unfold forN
  rw [foldlM_inv (l := List.range (N * C)) (f := fun m q => (windowLoops C KH KW OH OW step q).run m) St
    (fun s q => (indices [KH, KW, OH, OW]).foldl (fun s is => u s (q / C :: q % C :: is)) s) s
    (fun q hq s => key q (List.mem_range.1 hq) s)]
  congr 2
  rw [foldl_range_mul, foldl_indices_cons]
  apply List.foldl_ext
  intro s' i _
  rw [foldl_indices_cons]
  apply List.foldl_ext
  intro s'' j hj
  rw [List.mem_range] at hj
  have e1 : (i * C + j) / C = i := by
    rw [Nat.mul_comm, Nat.mul_add_div (by omega), Nat.div_eq_of_lt hj, Nat.add_zero]
  have e2 : (i * C + j) % C = j := by
    rw [Nat.mul_comm, Nat.mul_add_mod, Nat.mod_eq_of_lt hj]
  rw [e1, e2]

theorem put_ofFn {ds idx : List Nat} (a b m v : List T) (g : List Nat → T) (hv : ValidIdx ds idx) (x : T) :
    (memOf (bufs a b (ofFn ds g).data m v)).put (.result, ravel ds idx) x =
      memOf (bufs a b (ofFn ds (upd g idx x)).data m v) := by
  funext ⟨bf, k⟩
  have e : (ofFn ds (upd g idx x)).data = (ofFn ds g).data.set (ravel ds idx) x := by
    simp only [ofFn_data]
    exact (set_ofFn g hv x).symm
  have hlt : ravel ds idx < (ofFn ds g).data.length := by simpa using ravel_lt hv
  cases bf
  case result =>
    unfold Mem.put
    show _ = (ofFn ds (upd g idx x)).data[k]?
    rw [e, List.getElem?_set]
    by_cases hk : k = ravel ds idx
    · subst hk
      rw [if_pos rfl, if_pos rfl, if_pos hlt]
    · rw [if_neg (by simpa using hk), if_neg (Ne.symm hk)]
      rfl
  all_goals
    unfold Mem.put
    rw [if_neg (by simp)]
    rfl

theorem stepIndex (N C H W : Nat) {s p d : Int} {idx : List Nat} (hin : colIn H W s p d idx) :
    ((idx.getD 0 0 : Nat) * ((shapeOf [N, C, H, W]).stride.getD 0 0 : Nat) +
      (idx.getD 1 0 : Nat) * ((shapeOf [N, C, H, W]).stride.getD 1 0 : Nat) +
      ((idx.getD 4 0 : Nat) * s + (idx.getD 2 0 : Nat) * d - p) * ((shapeOf [N, C, H, W]).stride.getD 2 0 : Nat) +
      ((idx.getD 5 0 : Nat) * s + (idx.getD 3 0 : Nat) * d - p) * ((shapeOf [N, C, H, W]).stride.getD 3 0 : Nat) :
        Int).toNat = ravel [N, C, H, W] (colSrc s p d idx) := by
  obtain ⟨a1, a2, a3, a4⟩ := hin
  have ey := Int.toNat_of_nonneg a1
  have ex := Int.toNat_of_nonneg a3
  have er := ravel4_int N C H W (idx.getD 0 0) (idx.getD 1 0) (tap s p d (idx.getD 4 0) (idx.getD 2 0)).toNat
    (tap s p d (idx.getD 5 0) (idx.getD 3 0)).toNat
  rw [ey, ex] at er
  rw [shapeOf_stride, strides4]
  simp only [List.getD_cons_zero, List.getD_cons_succ]
  unfold tap at er
  rw [er]
  rfl

theorem stepFlat {N C KH KW OH OW : Nat} (hm : Dims [C * KH * KW, OH * OW * N]) {idx : List Nat}
    (hv : ValidIdx [N, C, KH, KW, OH, OW] idx) :
    computeFlatIndex (shapeOf [C * KH * KW, OH * OW * N])
      [(idx.getD 1 0 : Nat) * (KH : Int) * KW + (idx.getD 2 0 : Nat) * (KW : Int) + (idx.getD 3 0 : Nat),
        ((idx.getD 0 0 : Nat) * (OH : Int) + (idx.getD 4 0 : Nat)) * OW + (idx.getD 5 0 : Nat)] =
      .ok (ravel [C * KH * KW, OH * OW * N] (colPos KH KW OH OW idx)) := by
  rw [rowInt, colInt]
  exact computeFlatIndex_valid hm.pos hm.lt64.le (colPos_valid hv)

theorem im2colStep_eq [Zero T] {N C H W KH KW OH OW : Nat} {s p d : Int}
    (hm : Dims [C * KH * KW, OH * OW * N]) {idx : List Nat} (hv : ValidIdx [N, C, KH, KW, OH, OW] idx) :
    im2colStep (T := T) (shapeOf [N, C, H, W]) (shapeOf [C * KH * KW, OH * OW * N]) H W KH KW OH OW s p d
        (idx.getD 0 0) (idx.getD 1 0) (idx.getD 2 0) (idx.getD 3 0) (idx.getD 4 0) (idx.getD 5 0) =
      (if colIn H W s p d idx then .read (.a, ravel [N, C, H, W] (colSrc s p d idx)) fun x =>
        .write (.result, ravel [C * KH * KW, OH * OW * N] (colPos KH KW OH OW idx)) x .done
      else .write (.result, ravel [C * KH * KW, OH * OW * N] (colPos KH KW OH OW idx)) 0 .done) := by
  unfold im2colStep
  simp only [stepFlat hm hv]
  by_cases hin : colIn H W s p d idx
  · rw [if_pos hin, if_pos (by exact hin), stepIndex N C H W hin]
  · rw [if_neg hin, if_neg (by exact hin)]

theorem col2imStep_eq [Add T] {N C H W KH KW OH OW : Nat} {s p d : Int}
    (hm : Dims [C * KH * KW, OH * OW * N]) {idx : List Nat} (hv : ValidIdx [N, C, KH, KW, OH, OW] idx) :
    col2imStep (T := T) (shapeOf [N, C, H, W]) (shapeOf [C * KH * KW, OH * OW * N]) H W KH KW OH OW s p d
        (idx.getD 0 0) (idx.getD 1 0) (idx.getD 2 0) (idx.getD 3 0) (idx.getD 4 0) (idx.getD 5 0) =
      (if colIn H W s p d idx then
        .read (.a, ravel [C * KH * KW, OH * OW * N] (colPos KH KW OH OW idx)) fun x =>
        .read (.result, ravel [N, C, H, W] (colSrc s p d idx)) fun y =>
        .write (.result, ravel [N, C, H, W] (colSrc s p d idx)) (y + x) .done
      else .done) := by
  unfold col2imStep
  simp only [stepFlat hm hv]
  by_cases hin : colIn H W s p d idx
  · rw [if_pos hin, if_pos (by exact hin), stepIndex N C H W hin]
  · rw [if_neg hin, if_neg (by exact hin)]

/-- Iteration `q` works on the pair `(q / C, q % C)`. -/
theorem pair_lt {N C q : Nat} (hq : q < N * C) : q / C < N ∧ q % C < C := by
  have hC : 0 < C := by
    rcases Nat.eq_zero_or_pos C with rfl | h
    · simp at hq
    · exact h
  exact ⟨(Nat.div_lt_iff_lt_mul hC).2 hq, Nat.mod_lt _ hC⟩

theorem pair_inj {C i j : Nat} (h1 : i / C = j / C) (h2 : i % C = j % C) : i = j := by
  rw [← Nat.div_add_mod i C, ← Nat.div_add_mod j C, h1, h2]

/-- **C61 (im2col).**  Under every schedule, the parallel loop of `im2col` leaves in the result buffer exactly the
elements of the matrix that the sequential loop returns, and leaves the image alone. -/
theorem C61_im2col [Zero T] {N C H W KH KW OH OW : Nat} {s p d : Int}
    (hm : Dims [C * KH * KW, OH * OW * N]) (hoh : Conv.colDim H KH s p d = .ok (OH : Int))
    (how : Conv.colDim W KW s p d = .ok (OW : Int)) (f : List Nat → T) :
    ∃ r, Conv.im2col (ofFn [N, C, H, W] f) KH KW s p d = .ok r ∧ r.shape = shapeOf [C * KH * KW, OH * OW * N] ∧
      AlwaysGives (memOf (bufs (ofFn [N, C, H, W] f).data [] (Tensor.zeros (T := T) r.shape).data [] []))
        (windowLoops C KH KW OH OW (im2colStep (shapeOf [N, C, H, W]) r.shape H W KH KW OH OW s p d)) (N * C)
        (memOf (bufs (ofFn [N, C, H, W] f).data [] r.data [] [])) := by
  refine ⟨_, im2col_fold hm hoh how f, rfl, ?_⟩
  simp only [ofFn_shape]
  rw [zeros_shapeOf]
  obtain ⟨hrun, hseq⟩ := windowLoops_seq (N := N) (C := C) (KH := KH) (KW := KW) (OH := OH) (OW := OW)
    (fun g : List Nat → T => memOf (bufs (ofFn [N, C, H, W] f).data [] (ofFn [C * KH * KW, OH * OW * N] g).data [] []))
    (step := im2colStep (shapeOf [N, C, H, W]) (shapeOf [C * KH * KW, OH * OW * N]) H W KH KW OH OW s p d)
    (fun g idx => upd g (colPos KH KW OH OW idx) (if colIn H W s p d idx then f (colSrc s p d idx) else 0))
    (fun idx hv g => by
      have hpv := colPos_valid hv
      have hres : memOf (bufs (ofFn [N, C, H, W] f).data [] (ofFn [C * KH * KW, OH * OW * N] g).data [] [])
          (.result, ravel [C * KH * KW, OH * OW * N] (colPos KH KW OH OW idx)) = some (g (colPos KH KW OH OW idx)) :=
        ofFn_getElem? _ g hpv
      rw [im2colStep_eq hm hv]
      by_cases hin : colIn H W s p d idx
      · have hsrc : memOf (bufs (ofFn [N, C, H, W] f).data [] (ofFn [C * KH * KW, OH * OW * N] g).data [] [])
            (.a, ravel [N, C, H, W] (colSrc s p d idx)) = some (f (colSrc s p d idx)) :=
          ofFn_getElem? _ f (colSrc_valid hv hin)
        rw [if_pos hin, if_pos hin]
        simp only [Prog.run, hsrc, hres]
        rw [put_ofFn _ _ _ _ _ hpv]
      · rw [if_neg hin, if_neg hin]
        simp only [Prog.run, hres]
        rw [put_ofFn _ _ _ _ _ hpv])
    (fun _ => 0)
  refine alwaysGives_of_sequential
    (W := fun q l => l.1 = .result ∧ ∃ idx, ValidIdx [N, C, KH, KW, OH, OW] idx ∧ idx.getD 0 0 = q / C ∧
      idx.getD 1 0 = q % C ∧ l.2 = ravel [C * KH * KW, OH * OW * N] (colPos KH KW OH OW idx))
    (A := fun q l => l.1 = .a ∨ l.1 = .result ∧ ∃ idx, ValidIdx [N, C, KH, KW, OH, OW] idx ∧ idx.getD 0 0 = q / C ∧
      idx.getD 1 0 = q % C ∧ l.2 = ravel [C * KH * KW, OH * OW * N] (colPos KH KW OH OW idx))
    ⟨fun q hq => ?_, fun q hq l hl => Or.inr hl, ?_⟩ hrun hseq
  · refine windowLoops_within q (fun kh h1 kw h2 oh h3 ow h4 => ?_)
    have hv : ValidIdx [N, C, KH, KW, OH, OW] [q / C, q % C, kh, kw, oh, ow] :=
      valid6_iff.2 ⟨_, _, _, _, _, _, rfl, (pair_lt hq).1, (pair_lt hq).2, h1, h2, h3, h4⟩
    have e := im2colStep_eq (T := T) (H := H) (W := W) (s := s) (p := p) (d := d) hm hv
    simp only [List.getD_cons_zero, List.getD_cons_succ] at e
    rw [e]
    split
    · exact ⟨Or.inl rfl, fun x => ⟨⟨Or.inr ⟨rfl, _, hv, rfl, rfl, rfl⟩, rfl, _, hv, rfl, rfl, rfl⟩, trivial⟩⟩
    · exact ⟨⟨Or.inr ⟨rfl, _, hv, rfl, rfl, rfl⟩, rfl, _, hv, rfl, rfl, rfl⟩, trivial⟩
  · rintro i hi j hj hij ⟨bf, k⟩ ⟨hb, idx, hv, e0, e1, ek⟩ (ha | ⟨_, idx', hv', e0', e1', ek'⟩)
    · simp only at hb ha
      rw [hb] at ha
      cases ha
    · simp only at ek ek'
      have := colPos_inj hv hv' (ravel_inj (colPos_valid hv) (colPos_valid hv') (ek.symm.trans ek'))
      subst this
      exact hij (pair_inj (e0.symm.trans e0') (e1.symm.trans e1'))

/-- **C61 (col2im).**  The same for the accumulating loop of `col2im`: different pairs `(n, c)` accumulate into
different planes of the result. -/
theorem C61_col2im [Zero T] [Add T] {N C H W KH KW OH OW : Nat} {s p d : Int}
    (hm : Dims [C * KH * KW, OH * OW * N]) (hoh : Conv.colDim H KH s p d = .ok (OH : Int))
    (how : Conv.colDim W KW s p d = .ok (OW : Int)) (g : List Nat → T) :
    ∃ r, Conv.col2im (ofFn [C * KH * KW, OH * OW * N] g) (shapeOf [N, C, H, W]) KH KW s p d = .ok r ∧
      r.shape = shapeOf [N, C, H, W] ∧
      AlwaysGives (memOf (bufs (ofFn [C * KH * KW, OH * OW * N] g).data [] (Tensor.zeros (T := T) r.shape).data [] []))
        (windowLoops C KH KW OH OW (col2imStep r.shape (shapeOf [C * KH * KW, OH * OW * N]) H W KH KW OH OW s p d))
        (N * C) (memOf (bufs (ofFn [C * KH * KW, OH * OW * N] g).data [] r.data [] [])) := by
  refine ⟨_, col2im_fold hm hoh how g, rfl, ?_⟩
  simp only [ofFn_shape]
  rw [zeros_shapeOf, List.foldl_filter]
  obtain ⟨hrun, hseq⟩ := windowLoops_seq (N := N) (C := C) (KH := KH) (KW := KW) (OH := OH) (OW := OW)
    (fun f : List Nat → T => memOf (bufs (ofFn [C * KH * KW, OH * OW * N] g).data [] (ofFn [N, C, H, W] f).data [] []))
    (step := col2imStep (shapeOf [N, C, H, W]) (shapeOf [C * KH * KW, OH * OW * N]) H W KH KW OH OW s p d)
    (fun f idx => if decide (colIn H W s p d idx) = true then
      upd f (colSrc s p d idx) (f (colSrc s p d idx) + g (colPos KH KW OH OW idx)) else f)
    (fun idx hv f => by
      have hpv := colPos_valid hv
      rw [col2imStep_eq hm hv]
      by_cases hin : colIn H W s p d idx
      · have hsv := colSrc_valid hv hin
        have hsrc : memOf (bufs (ofFn [C * KH * KW, OH * OW * N] g).data [] (ofFn [N, C, H, W] f).data [] [])
            (.a, ravel [C * KH * KW, OH * OW * N] (colPos KH KW OH OW idx)) = some (g (colPos KH KW OH OW idx)) :=
          ofFn_getElem? _ g hpv
        have hres : memOf (bufs (ofFn [C * KH * KW, OH * OW * N] g).data [] (ofFn [N, C, H, W] f).data [] [])
            (.result, ravel [N, C, H, W] (colSrc s p d idx)) = some (f (colSrc s p d idx)) :=
          ofFn_getElem? _ f hsv
        rw [if_pos hin, if_pos (by simpa using hin)]
        simp only [Prog.run, hsrc, hres]
        rw [put_ofFn _ _ _ _ _ hsv]
      · rw [if_neg hin, if_neg (by simpa using hin)]
        rfl)
    (fun _ => 0)
  refine alwaysGives_of_sequential
    (W := fun q l => l.1 = .result ∧ ∃ y x, ValidIdx [N, C, H, W] [q / C, q % C, y, x] ∧
      l.2 = ravel [N, C, H, W] [q / C, q % C, y, x])
    (A := fun q l => l.1 = .a ∨ l.1 = .result ∧ ∃ y x, ValidIdx [N, C, H, W] [q / C, q % C, y, x] ∧
      l.2 = ravel [N, C, H, W] [q / C, q % C, y, x])
    ⟨fun q hq => ?_, fun q hq l hl => Or.inr hl, ?_⟩ hrun hseq
  · refine windowLoops_within q (fun kh h1 kw h2 oh h3 ow h4 => ?_)
    have hv : ValidIdx [N, C, KH, KW, OH, OW] [q / C, q % C, kh, kw, oh, ow] :=
      valid6_iff.2 ⟨_, _, _, _, _, _, rfl, (pair_lt hq).1, (pair_lt hq).2, h1, h2, h3, h4⟩
    have e := col2imStep_eq (T := T) (H := H) (W := W) (s := s) (p := p) (d := d) hm hv
    simp only [List.getD_cons_zero, List.getD_cons_succ] at e
    rw [e]
    split
    · rename_i hin
      have hsv := colSrc_valid hv hin
      exact ⟨Or.inl rfl, fun x => ⟨Or.inr ⟨rfl, _, _, hsv, rfl⟩, fun y =>
        ⟨⟨Or.inr ⟨rfl, _, _, hsv, rfl⟩, rfl, _, _, hsv, rfl⟩, trivial⟩⟩⟩
    · trivial
  · rintro i hi j hj hij ⟨bf, k⟩ ⟨hb, y, x, hv, ek⟩ (ha | ⟨_, y', x', hv', ek'⟩)
    · simp only at hb ha
      rw [hb] at ha
      cases ha
    · simp only at ek ek'
      have := ravel_inj hv hv' (ek.symm.trans ek')
      simp only [List.cons.injEq] at this
      exact hij (pair_inj this.1 this.2.1)

theorem sview_cell {v : SView} {buf : List T} {idx : List Int} {x : T} (h : v.read buf idx = .ok x) :
    buf[(v.mapIndex idx).toNat]? = some x := by
  unfold SView.read rd at h
  split at h
  · split at h
    · split at h
      · rename_i h2; simp only [Except.ok.injEq] at h; rw [h2, h]
      · simp at h
    · simp at h
  · simp at h

/-- **C61 (product of slice views).**  Under every schedule, the parallel loop of `matrixMatrixMulSlice` leaves the
product of the two windows, as the sequential loop does. -/
theorem C61_matmulSlice [Zero T] [Add T] [Mul T] {a b : SView} {A B V W : Tensor T} {m k n : Nat}
    (ha : ShowsWindow a A V) (hb : ShowsWindow b B W) (hs : a.shape = shapeOf [m, k]) (hs' : b.shape = shapeOf [k, n])
    (hmn : Dims [m, n]) :
    ∃ r, Tensor.matrixMatrixMulSlice a A.data b B.data = .ok r ∧ V.matmul W = .ok r ∧
      AlwaysGives (memOf (bufs A.data B.data (Tensor.full (shapeOf [m, n]) (0 : T)).data [] []))
        (matMulSliceBody a b k n) (m * n) (memOf (bufs A.data B.data r.data [] [])) := by
  have hmul := C75_matmul ha hb (by rw [hs]; rfl) (by rw [hs']; rfl) (by
    have hlt := hmn.lt
    simp only [List.prod_cons, List.prod_nil, Nat.mul_one] at hlt
    rw [hs, hs', shapeOf_dims, shapeOf_dims]
    have : ((ints [m, k]).getD 0 0 * (ints [k, n]).getD 1 0 : Int) = ((m * n : Nat) : Int) := by
      simp [ints]
    rw [this]
    exact_mod_cast hlt)
  obtain ⟨ds, ss, ts, f, hd, hw, rfl, rfl, rfl⟩ := showsWindow_elim ha
  obtain ⟨es, us, rs, g, he, hw', rfl, rfl, rfl⟩ := showsWindow_elim hb
  have hD : windowDims ds ss ts = [m, k] := by
    have := congrArg Shape.dims hs
    simp only [shapeOf_dims] at this
    exact ints_inj this
  have hE : windowDims es us rs = [k, n] := by
    have := congrArg Shape.dims hs'
    simp only [shapeOf_dims] at this
    exact ints_inj this
  have hr := fun idx hv => sview_cell (sview_read hd hw f (idx := idx) hv)
  have hr' := fun idx hv => sview_cell (sview_read he hw' g (idx := idx) hv)
  rw [hD] at hr hmul ⊢
  rw [hE] at hr' hmul ⊢
  rw [matmul_22, matrixMatrixMul_ok hmn] at hmul
  refine ⟨_, hmul, by rw [matmul_22, matrixMatrixMul_ok hmn], ?_⟩
  refine alwaysGives_of (disjoint_cells (out := (· = Buf.result)) ?_) (merged_cells ?_ ?_ ?_)
  · intro i _
    refine readDot_within (fun _ => Or.inl (by simp)) (fun _ => Or.inl (by simp)) (fun s => ?_) _ _
    exact ⟨⟨Or.inr rfl, rfl, rfl⟩, trivial⟩
  · intro bf hb; cases bf <;> simp_all [bufs]
  · rintro bf rfl
    simp [bufs, Tensor.full]
  · intro q hq
    have hn : 0 < n := hmn.pos n (by simp)
    have hi : q / n < m := (Nat.div_lt_iff_lt_mul hn).2 hq
    have hj : q % n < n := Nat.mod_lt _ hn
    have hF : ∀ φ : List Nat → T, (ofFn [m, n] φ).data[q]? = some (φ [q / n, q % n]) := by
      intro φ
      have := ofFn_getElem? [m, n] φ (idx := [q / n, q % n]) (valid2.2 ⟨hi, hj⟩)
      rw [ravel2, Nat.mul_comm, Nat.div_add_mod] at this
      exact this
    unfold matMulSliceBody
    rw [readDot_dot _ (fun p => f (windowIdx ss ts [q / n, p])) (fun p => g (windowIdx us rs [p, q % n]))]
    · refine ⟨?w, ?_, ?_⟩
      rotate_left
      · have h3 : memOf (bufs (ofFn ds f).data (ofFn es g).data
            (Tensor.full (shapeOf [m, n]) (0 : T)).data [] []) (.result, q) = some 0 := by
          rw [full_shapeOf]; exact hF _
        simp only [Prog.run, h3]
        rfl
      · rintro bf rfl
        simp only [Mem.put, if_true]
        exact (hF (fun idx => dot k (fun p => f (windowIdx ss ts [idx.getD 0 0, p]))
          fun p => g (windowIdx us rs [p, idx.getD 1 0]))).symm
    · intro p hp
      exact ⟨hr [q / n, p] (valid2.2 ⟨hi, hp⟩), hr' [p, q % n] (valid2.2 ⟨hp, hj⟩)⟩

/-- A 2-image batch of 4x4 one-channel images, 3x3 kernel, padding 1: the hypotheses of the two loops hold. -/
example : Dims [1 * 3 * 3, 4 * 4 * 2] ∧ Conv.colDim (4 : Nat) (3 : Nat) 1 1 1 = .ok ((4 : Nat) : Int) :=
  ⟨⟨by simp, by simp, by norm_num⟩, rfl⟩

end
end SmartDNN
