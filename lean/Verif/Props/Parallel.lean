import Verif.Proofs.Parallel
import Verif.Proofs.Matmul
import Verif.Spec.Parallel
import Mathlib.Tactic.IntervalCases

/-!
# C61: parallel loops are schedule independent
-/

namespace SmartDNN
open Spec

section
variable {T : Type}

/-- Footprints: an iteration writes only its own cells of the output buffers and reads only those and the input
buffers. -/
def mayRead (out : Buf → Prop) (i : Nat) (l : Loc) : Prop := ¬ out l.1 ∨ l.2 = i
/-- See `mayRead`. -/
def mayWrite (out : Buf → Prop) (i : Nat) (l : Loc) : Prop := out l.1 ∧ l.2 = i

theorem disjoint_cells {out : Buf → Prop} {body : Nat → Prog Loc T} {n : Nat}
    (h : ∀ i < n, (body i).Within (mayRead out i) (mayWrite out i)) :
    Disjoint' body n (mayRead out) (mayWrite out) := by
  refine ⟨h, fun i _ l hl => Or.inr hl.2, ?_⟩
  rintro i _ j _ hij l ⟨h1, h2⟩ h3
  rcases h3 with h3 | h3
  · exact h3 h1
  · exact hij (h2.symm.trans h3)

theorem merged_cells {out : Buf → Prop} {body : Nat → Prog Loc T} {n : Nat} {buf0 bufF : Buf → List T}
    (hin : ∀ b, ¬ out b → bufF b = buf0 b)
    (hlen : ∀ b, out b → (buf0 b).length = n ∧ (bufF b).length = n)
    (hown : ∀ i < n, ∃ r, (body i).run (memOf buf0) = .ok r ∧ ∀ b, out b → r (b, i) = (bufF b)[i]?) :
    Merged body n (mayWrite out) (memOf buf0) (memOf bufF) := by
  refine ⟨?_, ?_⟩
  · intro i hi
    obtain ⟨r, h1, h2⟩ := hown i hi
    refine ⟨r, h1, ?_⟩
    rintro ⟨b, j⟩ ⟨hb, hj⟩
    simp only at hb hj
    subst hj
    exact (h2 b hb).symm
  · rintro ⟨b, j⟩ hl
    show (bufF b)[j]? = (buf0 b)[j]?
    by_cases hb : out b
    · obtain ⟨h1, h2⟩ := hlen b hb
      have hj : ¬ j < n := fun hj => hl j hj ⟨hb, rfl⟩
      rw [List.getElem?_eq_none (by omega), List.getElem?_eq_none (by omega)]
    · rw [hin b hb]

theorem alwaysGives_of {L V : Type} [DecidableEq L] {body : Nat → Prog L V} {n : Nat} {A W : Nat → L → Prop}
    {mem0 memF : Mem L V} (hD : Disjoint' body n A W) (hM : Merged body n W mem0 memF) :
    AlwaysGives mem0 body n memF :=
  fun _ hp => ⟨_, fun _ _ hs => parallel_correct hD hM hp hs⟩

theorem ofFn_cell (ds : List Nat) (f : List Nat → T) {i : Nat} (hi : i < ds.prod) :
    ∃ idx, ValidIdx ds idx ∧ ravel ds idx = i ∧ ∀ g : List Nat → T, (ofFn ds g).data[i]? = some (g idx) := by
  obtain ⟨idx, hv, hr, _⟩ := exists_idx_of_lt hi
  exact ⟨idx, hv, hr, fun g => hr ▸ ofFn_getElem? ds g hv⟩

/-- **C61 (applyPair).**  For every pair of tensors of equal shape and every function, the parallel loop of
`applyPair`, under every schedule, leaves in the result buffer exactly the elements of the tensor that the
sequential loop returns, and leaves both operands alone. -/
theorem C61_applyPair [Zero T] (ds : List Nat) (f g : List Nat → T) (φ : T → T → T) :
    ∃ r, (ofFn ds f).applyPair (ofFn ds g) φ = .ok r ∧ r.shape = shapeOf ds ∧
      AlwaysGives (memOf (bufs (ofFn ds f).data (ofFn ds g).data (Tensor.zeros (T := T) (shapeOf ds)).data [] []))
        (applyPairBody φ) ds.prod (memOf (bufs (ofFn ds f).data (ofFn ds g).data r.data [] [])) := by
  refine ⟨_, applyPair_ofFn ds f g φ, rfl, ?_⟩
  refine alwaysGives_of (disjoint_cells (out := (· = Buf.result)) ?_) (merged_cells ?_ ?_ ?_)
  · intro i _
    refine ⟨Or.inl (by simp), fun _ => ⟨Or.inl (by simp), fun _ => ⟨⟨Or.inr rfl, rfl, rfl⟩, trivial⟩⟩⟩
  · intro bf hb; cases bf <;> simp_all [bufs]
  · rintro bf rfl
    simp [bufs, Tensor.zeros]
  · intro i hi
    obtain ⟨idx, hv, hr, hc⟩ := ofFn_cell ds f hi
    have h1 : memOf (bufs (ofFn ds f).data (ofFn ds g).data (Tensor.zeros (T := T) (shapeOf ds)).data [] [])
        (.a, i) = some (f idx) := hc f
    have h2 : memOf (bufs (ofFn ds f).data (ofFn ds g).data (Tensor.zeros (T := T) (shapeOf ds)).data [] [])
        (.b, i) = some (g idx) := hc g
    have h3 : memOf (bufs (ofFn ds f).data (ofFn ds g).data (Tensor.zeros (T := T) (shapeOf ds)).data [] [])
        (.result, i) = some 0 := by rw [zeros_shapeOf]; exact hc (fun _ => 0)
    refine ⟨?w, ?_, ?_⟩
    rotate_left
    · simp only [applyPairBody, Prog.run, h1, h2, h3]
      rfl
    · rintro bf rfl
      simp only [Mem.put, if_true]
      exact (hc (fun i => φ (f i) (g i))).symm

/-! ### Products -/

variable [Zero T] [Add T] [Mul T]

omit [Zero T] in
theorem readDot_run (m : Mem Loc T) (ga gb : Nat → T) (k : T → Prog Loc T) :
    ∀ (ps : List (Nat × Nat)) (acc : T), (∀ p ∈ ps, m (.a, p.1) = some (ga p.1) ∧ m (.b, p.2) = some (gb p.2)) →
      (readDot ps acc k).run m = (k (ps.foldl (fun acc p => acc + ga p.1 * gb p.2) acc)).run m
  | [], acc, _ => rfl
  | (i, j) :: ps, acc, h => by
    have := h (i, j) (by simp)
    simp only at this
    simp only [readDot, Prog.run, this.1, this.2, List.foldl_cons]
    exact readDot_run m ga gb k ps _ (fun p hp => h p (by simp [hp]))

omit [Zero T] in
theorem readDot_within {A W : Loc → Prop} {k : T → Prog Loc T} (hA : ∀ i, A (.a, i)) (hB : ∀ i, A (.b, i))
    (hk : ∀ s, (k s).Within A W) : ∀ (ps : List (Nat × Nat)) (acc : T), (readDot ps acc k).Within A W
  | [], acc => hk acc
  | (_, _) :: ps, _ => ⟨hA _, fun _ => ⟨hB _, fun _ => readDot_within hA hB hk ps _⟩⟩

theorem readDot_dot (m : Mem Loc T) (x y : Nat → T) (ia ib : Nat → Nat) (k : T → Prog Loc T) (n : Nat)
    (h : ∀ p < n, m (.a, ia p) = some (x p) ∧ m (.b, ib p) = some (y p)) :
    (readDot ((List.range n).map (fun p => (ia p, ib p))) 0 k).run m = (k (dot n x y)).run m := by
  rw [readDot_run m (fun i => (m (.a, i)).getD 0) (fun i => (m (.b, i)).getD 0)]
  · congr 2
    rw [List.foldl_map]
    unfold dot lsum
    rw [List.foldl_map]
    apply List.foldl_ext
    intro acc p hp
    rw [List.mem_range] at hp
    simp [(h p hp).1, (h p hp).2]
  · simp only [List.mem_map, List.mem_range]
    rintro _ ⟨p, hp, rfl⟩
    simp [(h p hp).1, (h p hp).2]

/-- **C61 (matrix times vector).** -/
theorem C61_matvec {m n : Nat} (h : Dims [m]) (f g : List Nat → T) :
    ∃ r, (ofFn [m, n] f).matmul (ofFn [n] g) = .ok r ∧ r.shape = shapeOf [m] ∧
      AlwaysGives (memOf (bufs (ofFn [m, n] f).data (ofFn [n] g).data (Tensor.full (shapeOf [m]) (0 : T)).data [] []))
        (matVecBody n) m (memOf (bufs (ofFn [m, n] f).data (ofFn [n] g).data r.data [] [])) := by
  refine ⟨_, (by unfold Tensor.matmul; simp : (ofFn [m, n] f).matmul (ofFn [n] g) =
    (ofFn [m, n] f).matrixVectorMul (ofFn [n] g)).trans (matrixVectorMul_ok h f g), rfl, ?_⟩
  refine alwaysGives_of (disjoint_cells (out := (· = Buf.result)) ?_) (merged_cells ?_ ?_ ?_)
  · intro i _
    refine readDot_within (fun _ => Or.inl (by simp)) (fun _ => Or.inl (by simp)) (fun s => ?_) _ _
    exact ⟨⟨Or.inr rfl, rfl, rfl⟩, trivial⟩
  · intro bf hb; cases bf <;> simp_all [bufs]
  · rintro bf rfl
    simp [bufs, Tensor.full]
  · intro i hi
    have hF : ∀ φ : List Nat → T, (ofFn [m] φ).data[i]? = some (φ [i]) := by
      intro φ
      have := ofFn_getElem? [m] φ (idx := [i]) (valid1.2 hi)
      simpa [ravel] using this
    unfold matVecBody
    rw [readDot_dot _ (fun p => f [i, p]) (fun p => g [p]) (fun j => i * n + j) (fun j => j)]
    · refine ⟨?w, ?_, ?_⟩
      rotate_left
      · have h3 : memOf (bufs (ofFn [m, n] f).data (ofFn [n] g).data (Tensor.full (shapeOf [m]) (0 : T)).data [] [])
            (.result, i) = some 0 := by rw [full_shapeOf]; exact hF _
        simp only [Prog.run, h3]
        rfl
      · rintro bf rfl
        simp only [Mem.put, if_true]
        exact (hF (fun idx => dot n (fun p => f [idx.getD 0 0, p]) fun p => g [p])).symm
    · intro p hp
      constructor
      · have := ofFn_getElem? [m, n] f (idx := [i, p]) (valid2.2 ⟨hi, hp⟩)
        rw [ravel2] at this
        exact this
      · have := ofFn_getElem? [n] g (idx := [p]) (valid1.2 hp)
        rw [show ravel [n] [p] = p by simp [ravel]] at this
        exact this

/-- **C61 (matrix times matrix).** -/
theorem C61_matmul {m k n : Nat} (h : Dims [m, n]) (f g : List Nat → T) :
    ∃ r, (ofFn [m, k] f).matmul (ofFn [k, n] g) = .ok r ∧ r.shape = shapeOf [m, n] ∧
      AlwaysGives (memOf (bufs (ofFn [m, k] f).data (ofFn [k, n] g).data
          (Tensor.full (shapeOf [m, n]) (0 : T)).data [] []))
        (matMulBody k n) (m * n) (memOf (bufs (ofFn [m, k] f).data (ofFn [k, n] g).data r.data [] [])) := by
  refine ⟨_, (by unfold Tensor.matmul; simp : (ofFn [m, k] f).matmul (ofFn [k, n] g) =
    (ofFn [m, k] f).matrixMatrixMul (ofFn [k, n] g)).trans (matrixMatrixMul_ok h f g), rfl, ?_⟩
  refine alwaysGives_of (disjoint_cells (out := (· = Buf.result)) ?_) (merged_cells ?_ ?_ ?_)
  · intro i _
    refine readDot_within (fun _ => Or.inl (by simp)) (fun _ => Or.inl (by simp)) (fun s => ?_) _ _
    exact ⟨⟨Or.inr rfl, rfl, rfl⟩, trivial⟩
  · intro bf hb; cases bf <;> simp_all [bufs]
  · rintro bf rfl
    simp [bufs, Tensor.full]
  · intro q hq
    have hn : 0 < n := h.pos n (by simp)
    have hi : q / n < m := (Nat.div_lt_iff_lt_mul hn).2 hq
    have hj : q % n < n := Nat.mod_lt _ hn
    have hF : ∀ φ : List Nat → T, (ofFn [m, n] φ).data[q]? = some (φ [q / n, q % n]) := by
      intro φ
      have := ofFn_getElem? [m, n] φ (idx := [q / n, q % n]) (valid2.2 ⟨hi, hj⟩)
      rw [ravel2, Nat.mul_comm, Nat.div_add_mod] at this
      exact this
    unfold matMulBody
    rw [readDot_dot _ (fun p => f [q / n, p]) (fun p => g [p, q % n]) (fun p => q / n * k + p)
      (fun p => p * n + q % n)]
    · refine ⟨?w, ?_, ?_⟩
      rotate_left
      · have h3 : memOf (bufs (ofFn [m, k] f).data (ofFn [k, n] g).data
            (Tensor.full (shapeOf [m, n]) (0 : T)).data [] []) (.result, q) = some 0 := by
          rw [full_shapeOf]; exact hF _
        simp only [Prog.run, h3]
        rfl
      · rintro bf rfl
        simp only [Mem.put, if_true]
        exact (hF (fun idx => dot k (fun p => f [idx.getD 0 0, p]) fun p => g [p, idx.getD 1 0])).symm
    · intro p hp
      constructor
      · have := ofFn_getElem? [m, k] f (idx := [q / n, p]) (valid2.2 ⟨hi, hp⟩)
        rw [ravel2] at this
        exact this
      · have := ofFn_getElem? [k, n] g (idx := [p, q % n]) (valid2.2 ⟨hp, hj⟩)
        rw [ravel2] at this
        exact this

end

/-! ### Adam -/

section
variable {T : Type} [Zero T] [One T] [Add T] [Sub T] [Mul T] [Div T] [Neg T] [NatCast T] [IntCast T] [LT T]
  [DecidableLT T] [LE T] [DecidableLE T] [DecidableEq T] [MathFn T]

/-- **C61 (Adam).**  The parallel parameter update, under every schedule, leaves in the weight and moment buffers
exactly what the sequential loop computes. -/
theorem C61_adam (o : AdamOptions T) (lr : T) (it : Nat) (ds : List Nat) (w m v g : List Nat → T) :
    ∃ w' m' v', Adam.loop o lr it (ofFn ds w, ofFn ds m, ofFn ds v) (ofFn ds g) = .ok (w', m', v') ∧
      AlwaysGives (memOf (bufs (ofFn ds g).data [] (ofFn ds w).data (ofFn ds m).data (ofFn ds v).data))
        (adamBody o lr it) ds.prod (memOf (bufs (ofFn ds g).data [] w'.data m'.data v'.data)) := by
  refine ⟨_, _, _, adam_loop_ofFn o lr it ds w m v g, ?_⟩
  refine alwaysGives_of (disjoint_cells (out := fun bf => bf = Buf.result ∨ bf = .m ∨ bf = .v) ?_) (merged_cells ?_ ?_ ?_)
  · intro i _
    exact ⟨Or.inl (by simp), fun _ => ⟨Or.inr rfl, fun _ => ⟨Or.inr rfl, fun _ => ⟨Or.inr rfl, fun _ =>
      ⟨⟨Or.inr rfl, by simp, rfl⟩, ⟨Or.inr rfl, by simp, rfl⟩, ⟨Or.inr rfl, by simp, rfl⟩, trivial⟩⟩⟩⟩⟩
  · intro bf hb; cases bf <;> simp_all [bufs]
  · rintro bf (rfl | rfl | rfl) <;> simp [bufs]
  · intro i hi
    obtain ⟨idx, hv, hr, hc⟩ := ofFn_cell ds g hi
    have h1 : memOf (bufs (ofFn ds g).data [] (ofFn ds w).data (ofFn ds m).data (ofFn ds v).data) (.a, i) =
      some (g idx) := hc g
    have h2 : memOf (bufs (ofFn ds g).data [] (ofFn ds w).data (ofFn ds m).data (ofFn ds v).data) (.m, i) =
      some (m idx) := hc m
    have h3 : memOf (bufs (ofFn ds g).data [] (ofFn ds w).data (ofFn ds m).data (ofFn ds v).data) (.v, i) =
      some (v idx) := hc v
    have h4 : memOf (bufs (ofFn ds g).data [] (ofFn ds w).data (ofFn ds m).data (ofFn ds v).data) (.result, i) =
      some (w idx) := hc w
    generalize hm0 : memOf (bufs (ofFn ds g).data [] (ofFn ds w).data (ofFn ds m).data (ofFn ds v).data) = m0 at *
    have e1 : (Buf.m, i) ≠ (Buf.v, i) := by simp
    have e2 : (Buf.m, i) ≠ (Buf.result, i) := by simp
    have e3 : (Buf.v, i) ≠ (Buf.result, i) := by simp
    refine ⟨((m0.put (.m, i) (adamCell o lr it (g idx) (w idx, m idx, v idx)).2.1).put (.v, i)
      (adamCell o lr it (g idx) (w idx, m idx, v idx)).2.2).put (.result, i)
      (adamCell o lr it (g idx) (w idx, m idx, v idx)).1, ?_, ?_⟩
    · have h5 : ∀ x, m0.put (.m, i) x (.v, i) = some (v idx) := fun x => by
        unfold Mem.put; rw [if_neg e1.symm, h3]
      have h6 : ∀ x y, (m0.put (.m, i) x).put (.v, i) y (.result, i) = some (w idx) := fun x y => by
        unfold Mem.put; rw [if_neg e3.symm, if_neg e2.symm, h4]
      simp only [adamBody, Prog.run, h1, h2, h3, h4, h5, h6]
      rfl
    · rintro bf (rfl | rfl | rfl)
      · unfold Mem.put
        rw [if_pos rfl]
        exact (hc (fun i => (adamCell o lr it (g i) (w i, m i, v i)).1)).symm
      · unfold Mem.put
        rw [if_neg e2, if_neg e1, if_pos rfl]
        exact (hc (fun i => (adamCell o lr it (g i) (w i, m i, v i)).2.1)).symm
      · unfold Mem.put
        rw [if_neg e3, if_pos rfl]
        exact (hc (fun i => (adamCell o lr it (g i) (w i, m i, v i)).2.2)).symm

end

/-- Two threads, a 2x3 by 3x2 product: any execution from this start is covered. -/
example : Partition 4 [[2, 0], [3, 1]] := by unfold Partition; decide

example : ∃ r, (ofFn [2, 3] (fun i => (i.sum : ℤ))).matmul (ofFn [3, 2] (fun i => (i.prod : ℤ))) = .ok r ∧
    r.shape = shapeOf [2, 2] :=
  let ⟨r, h1, h2, _⟩ := C61_matmul (T := ℤ) (m := 2) (k := 3) (n := 2) ⟨by simp, by simp, by norm_num⟩
    (fun i => (i.sum : ℤ)) (fun i => (i.prod : ℤ))
  ⟨r, h1, h2⟩

end SmartDNN
