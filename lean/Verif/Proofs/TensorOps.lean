import Verif.Proofs.Views
import Verif.Model.TensorOps

/-! Lemmas about element-wise arithmetic. -/

namespace SmartDNN
open Spec

/-! ### Size of a broadcast shape -/

theorem prod_range_getD (l : List Nat) (n : Nat) (h : l.length ≤ n) :
    ((List.range n).map (fun i => l.getD i 1)).prod = l.prod := by
  have : (List.range n).map (fun i => l.getD i 1) = l ++ List.replicate (n - l.length) 1 := by
    apply List.ext_getElem (by simp; omega)
    intro i h1 h2
    simp only [List.getElem_map, List.getElem_range]
    by_cases hi : i < l.length
    · rw [List.getElem_append_left hi, List.getD_eq_getElem _ _ hi]
    · rw [List.getElem_append_right (by omega), List.getD_eq_default _ _ (by omega)]
      simp
  rw [this]; simp

theorem prod_map_max_le (f g : Nat → Nat) (hf : ∀ i, 0 < f i) (hg : ∀ i, 0 < g i) (n : Nat) :
    ((List.range n).map (fun i => max (f i) (g i))).prod ≤
      ((List.range n).map f).prod * ((List.range n).map g).prod := by
  induction n with
  | zero => simp
  | succ n ih =>
    simp only [List.range_succ, List.map_append, List.map_cons, List.map_nil, List.prod_append,
      List.prod_cons, List.prod_nil, Nat.mul_one]
    have h1 : max (f n) (g n) ≤ f n * g n := by
      have := hf n; have := hg n
      rcases le_total (f n) (g n) with h | h
      · rw [max_eq_right h]; exact Nat.le_mul_of_pos_left _ (hf n)
      · rw [max_eq_left h]; exact Nat.le_mul_of_pos_right _ (hg n)
    calc _ ≤ _ := Nat.mul_le_mul ih h1
      _ = _ := by ring

theorem bdims_prod_le {a b : List Nat} (ha : ∀ d ∈ a, 0 < d) (hb : ∀ d ∈ b, 0 < d) :
    (bdims a b).prod ≤ a.prod * b.prod := by
  unfold bdims
  rw [List.prod_reverse]
  refine le_trans (prod_map_max_le _ _ (dimR_pos ha) (dimR_pos hb) _) ?_
  have h1 := prod_range_getD a.reverse (max a.length b.length) (by simp)
  have h2 := prod_range_getD b.reverse (max a.length b.length) (by simp)
  unfold dimR
  rw [h1, h2, List.prod_reverse, List.prod_reverse]

theorem bdims_lt64 {a b : List Nat} (ha : Dims a) (hb : Dims b) : (bdims a b).prod < sizeMod := by
  refine lt_of_le_of_lt (bdims_prod_le ha.pos hb.pos) ?_
  have h1 := ha.lt; have h2 := hb.lt
  have : a.prod * b.prod ≤ 2 ^ 31 * 2 ^ 31 := Nat.mul_le_mul h1.le h2.le
  have h3 : (2 : Nat) ^ 31 * 2 ^ 31 < sizeMod := by decide
  omega

theorem prod_le_of_stretches {a b : List Nat} (ha : ∀ d ∈ a, 0 < d) (hb : ∀ d ∈ b, 0 < d) :
    a.prod ≤ (bdims a b).prod := by
  unfold bdims
  rw [List.prod_reverse]
  have h1 := prod_range_getD a.reverse (max a.length b.length) (by simp)
  rw [List.prod_reverse] at h1
  rw [← h1]
  have key : ∀ n, ((List.range n).map (fun i => a.reverse.getD i 1)).prod ≤
      ((List.range n).map (fun i => max (dimR a i) (dimR b i))).prod := by
    intro n
    induction n with
    | zero => simp
    | succ n ih =>
      simp only [List.range_succ, List.map_append, List.map_cons, List.map_nil, List.prod_append,
        List.prod_cons, List.prod_nil, Nat.mul_one]
      exact Nat.mul_le_mul ih (le_max_left _ _)
  exact key _

theorem Spec.Stretches.bdims_eq {a b : List Nat} (ha : ∀ d ∈ a, 0 < d) (hb : ∀ d ∈ b, 0 < d)
    (h : Stretches b a) : bdims a b = a := by
  apply dimR_ext
  · simp [h.1]
  · intro i
    rw [dimR_bdims ha hb]
    have h1 := dimR_pos ha i
    rcases h.2 i with h2 | h2 <;> rw [h2] <;> omega

theorem proj_self {ds idx : List Nat} (hv : ValidIdx ds idx) : proj ds idx = idx := by
  rw [proj_eq_pin, hv.length, Nat.sub_self, List.drop_zero]
  induction hv with
  | nil => rfl
  | @cons i d is ds hi _ ih =>
    simp only [pin, List.zipWith_cons_cons] at *
    rw [ih]
    split_ifs with h
    · have : i = 0 := by omega
      rw [this]
    · rfl

section
variable {T : Type}

/-! ### Fresh results -/

theorem binop_ofFn [Zero T] (op : T → T → T) {a b : List Nat} (ha : Dims a) (hb : Dims b)
    (h : Compat a b) (f g : List Nat → T) :
    (ofFn a f).binop op (ofFn b g) =
      .ok (ofFn (bdims a b) (fun idx => op (f (proj a idx)) (g (proj b idx)))) := by
  unfold Tensor.binop
  have hsa := stretches_bdims_left ha.pos hb.pos h
  have hsb := stretches_bdims_right ha.pos hb.pos h
  obtain ⟨va, hva, hsva, hma⟩ := bview_make ha.pos ha.lt hsa
  obtain ⟨vb, hvb, hsvb, hmb⟩ := bview_make hb.pos hb.lt hsb
  simp only [ofFn_shape, ofFn_data]
  rw [broadcastShapes_ok ha.pos hb.pos ha.ne h (bdims_lt64 ha hb)]
  simp only [Except.bind_ok']
  rw [hva, hvb]
  simp only [Except.bind_ok']
  rw [if_neg (by rw [hsva, hsvb]; simp), bview_toList (bdims_pos ha.pos) va hsva hma hsa,
    bview_toList (bdims_pos ha.pos) vb hsvb hmb hsb]
  simp only [Except.bind_ok', zeros_shapeOf, Except.pure_eq', ofFn_data]
  unfold Tensor.transform2
  rw [if_neg (by simp), if_neg (by simp)]
  simp only [Except.bind_ok', ofFn]
  congr 2
  rw [List.drop_of_length_le (by simp), List.append_nil, List.zipWith_map, List.zipWith_self]

theorem binop_err [Zero T] (op : T → T → T) {a b : List Nat} (h : ¬ Compat a b) (f g : List Nat → T) :
    (ofFn a f).binop op (ofFn b g) = .error .invalidArgument := by
  unfold Tensor.binop
  simp only [ofFn_shape]
  rw [broadcastShapes_err h]
  rfl

/-! ### In-place -/

theorem Mut.foldr_snoc {σ : Type} (body : Nat → Mut σ Unit) (l : List Nat) (n : Nat) :
    (l ++ [n]).foldr (fun i rest => Mut.bind (body i) (fun _ => rest)) (Mut.pure ()) =
      Mut.bind (l.foldr (fun i rest => Mut.bind (body i) (fun _ => rest)) (Mut.pure ())) (fun _ => body n) := by
  induction l with
  | nil =>
    funext s
    simp only [List.nil_append, List.foldr_cons, List.foldr_nil, Mut.bind, Mut.pure]
    rcases body n s with ⟨_ | _, _⟩ <;> rfl
  | cons x l ih =>
    simp only [List.cons_append, List.foldr_cons, ih]
    funext s
    simp only [Mut.bind]
    rcases body x s with ⟨_ | _, _⟩ <;> rfl

theorem Mut.forN_succ {σ : Type} (n : Nat) (body : Nat → Mut σ Unit) :
    Mut.forN (n + 1) body = Mut.bind (Mut.forN n body) (fun _ => body n) := by
  unfold Mut.forN
  rw [List.range_succ, Mut.foldr_snoc]

theorem Mut.forN_inv {σ : Type} {n : Nat} {s : σ} {body : Nat → Mut σ Unit} (P : Nat → σ → Prop)
    (h0 : P 0 s) (hs : ∀ i s, i < n → P i s → ∃ s', body i s = (.ok (), s') ∧ P (i + 1) s') :
    ∃ s', Mut.forN n body s = (.ok (), s') ∧ P n s' := by
  induction n with
  | zero => exact ⟨s, rfl, h0⟩
  | succ n ih =>
    obtain ⟨s', h1, h2⟩ := ih (fun i s hi => hs i s (by omega))
    obtain ⟨s'', h3, h4⟩ := hs n s' (by omega) h2
    refine ⟨s'', ?_, h4⟩
    rw [Mut.forN_succ]
    simp only [Mut.bind, h1, h3]

theorem inplace_loop (op : T → T → T) (r : Option (Tensor T)) {rd' : List Nat} (rv : BView) (sh : Shape)
    (X Y : List T) (hp : ∀ d ∈ rd', 0 < d) (hs : rv.shape = shapeOf rd') (hsize : sh.size = rd'.prod)
    (hX : X.length = rd'.prod) (hY : Y.length = rd'.prod)
    (hd : ∀ idx, ValidIdx rd' idx → ∀ y, Y[ravel rd' idx]? = some y →
      rv.deref (match r with
        | some t => t.data
        | none => (List.zipWith op X Y).take (ravel rd' idx) ++ X.drop (ravel rd' idx)) ⟨ints idx, false⟩ = .ok y) :
    ∃ it, Mut.forN sh.size (fun k => do
      let st ← Mut.get
      let x ← Mut.lift (rd st.1.data k)
      let y ← Mut.lift (rv.deref (match r with | some t => t.data | none => st.1.data) st.2)
      let d ← Mut.lift (wr st.1.data k (op x y))
      Mut.set ({ st.1 with data := d }, st.2.next rv.shape)) ((⟨sh, X⟩ : Tensor T), ViewIter.begin rv.shape) =
      (.ok (), ((⟨sh, List.zipWith op X Y⟩ : Tensor T), it)) := by
  have := Mut.forN_inv (n := sh.size) (s := ((⟨sh, X⟩ : Tensor T), ViewIter.begin rv.shape))
    (body := fun k => do
      let st ← Mut.get
      let x ← Mut.lift (rd st.1.data k)
      let y ← Mut.lift (rv.deref (match r with | some t => t.data | none => st.1.data) st.2)
      let d ← Mut.lift (wr st.1.data k (op x y))
      Mut.set ({ st.1 with data := d }, st.2.next rv.shape))
    (fun k st => st.1 = ⟨sh, (List.zipWith op X Y).take k ++ X.drop k⟩ ∧
      (k < rd'.prod → ∃ idx, ValidIdx rd' idx ∧ ravel rd' idx = k ∧ st.2 = ⟨ints idx, false⟩)) ?_ ?_
  · obtain ⟨s', h1, h2, _⟩ := this
    refine ⟨s'.2, ?_⟩
    rw [h1]
    rw [hsize, List.drop_of_length_le (by omega), List.take_of_length_le (by simp; omega)] at h2
    rw [List.append_nil] at h2
    rw [← h2]
  · refine ⟨by simp, fun _ => ⟨_, validIdx_zeros hp, ravel_zeros _, ?_⟩⟩
    rw [hs, begin_eq]
  · rintro k ⟨t, it⟩ hk ⟨rfl, hit⟩
    rw [hsize] at hk
    obtain ⟨idx, hv, hr, rfl⟩ := hit hk
    have hkX : k < X.length := by omega
    have hkY : k < Y.length := by omega
    have hd' := hd idx hv Y[k] (by rw [hr]; exact List.getElem?_eq_getElem hkY)
    have hget : ((List.zipWith op X Y).take k ++ X.drop k)[k]? = some X[k] := by
      rw [List.getElem?_append_right (by simp)]
      simp [List.length_take, Nat.min_eq_left (show k ≤ min X.length Y.length by omega), hkX]
    have hset : ((List.zipWith op X Y).take k ++ X.drop k).set k (op X[k] Y[k]) =
        (List.zipWith op X Y).take (k + 1) ++ X.drop (k + 1) := by
      have hlt : ((List.zipWith op X Y).take k).length = k := by simp; omega
      rw [List.set_append_right _ _ (by omega), hlt, Nat.sub_self, List.drop_eq_getElem_cons hkX,
        List.set_cons_zero, List.take_add_one,
        List.getElem?_eq_getElem (by simp; omega), List.getElem_zipWith]
      simp
    refine ⟨(⟨sh, (List.zipWith op X Y).take (k + 1) ++ X.drop (k + 1)⟩, ViewIter.next rv.shape ⟨ints idx, false⟩), ?_, rfl, ?_⟩
    · show (Mut.bind _ _ : Mut _ _) _ = _
      simp only [Mut.bind, Mut.get]
      show (Mut.bind _ _ : Mut _ _) _ = _
      simp only [Mut.bind, Mut.lift, rd_some hget]
      show (Mut.bind _ _ : Mut _ _) _ = _
      rw [hr] at hd'
      simp only [Mut.bind, Mut.lift, hd']
      show (Mut.bind _ _ : Mut _ _) _ = _
      simp only [Mut.bind]
      rw [wr_lt (by simp; omega), hset]
      rfl
    · intro hk1
      obtain ⟨h1, h2⟩ := next_spec hp hv
      obtain ⟨idx', he, hv', hr'⟩ := h1 (by omega)
      rw [hs]
      exact ⟨idx', hv', by omega, he⟩

theorem inplace_ok (op : T → T → T) {a b : List Nat} (ha : Dims a) (hb : Dims b) (h : Compat a b)
    (hsz : (bdims a b).prod = a.prod) (f g : List Nat → T) :
    (Tensor.binopInPlaceM op (some (ofFn b g))) (ofFn a f) =
      (.ok (), ⟨shapeOf a, List.zipWith op ((indices a).map f)
        ((indices (bdims a b)).map (fun idx => g (proj b idx)))⟩) := by
  unfold Tensor.binopInPlaceM
  have hsb := stretches_bdims_right ha.pos hb.pos h
  obtain ⟨vb, hvb, hsvb, hmb⟩ := bview_make hb.pos hb.lt hsb
  simp only [Option.getD_some]
  rw [ofFn_shape, ofFn_shape]
  rw [broadcastShapes_ok ha.pos hb.pos ha.ne h (bdims_lt64 ha hb)]
  simp only [Except.bind_ok', hvb]
  rw [if_neg (by rw [hsvb]; simp [hsz])]
  simp only [Except.pure_eq']
  obtain ⟨it, hit⟩ := inplace_loop op (some (ofFn b g)) vb (shapeOf a) ((indices a).map f)
    ((indices (bdims a b)).map (fun idx => g (proj b idx))) (bdims_pos ha.pos) hsvb (by simp [hsz])
    (by simp [hsz]) (by simp)
    (by
      intro idx hv y hy
      simp only [ofFn_data]
      rw [bview_deref vb hsvb hmb hsb g hv]
      rw [List.getElem?_map, indices_ravel hv] at hy
      simpa using hy)
  simp only [ofFn_data] at hit
  unfold ofFn
  simp only [hit]

theorem inplace_alias_ok (op : T → T → T) {a : List Nat} (ha : Dims a) (f : List Nat → T) :
    (Tensor.binopInPlaceM op none) (ofFn a f) = (.ok (), ofFn a (fun idx => op (f idx) (f idx))) := by
  unfold Tensor.binopInPlaceM
  have hb := bdims_self ha.pos
  have hs : Stretches a a := ⟨le_rfl, fun _ => Or.inl rfl⟩
  obtain ⟨vb, hvb, hsvb, hmb⟩ := bview_make ha.pos ha.lt hs
  simp only [Option.getD_none]
  rw [ofFn_shape]
  rw [broadcastShapes_ok ha.pos ha.pos ha.ne (compat_self a) (bdims_lt64 ha ha), hb]
  simp only [Except.bind_ok', hvb]
  rw [if_neg (by rw [hsvb]; simp)]
  simp only [Except.pure_eq']
  obtain ⟨it, hit⟩ := inplace_loop op none vb (shapeOf a) ((indices a).map f)
    ((indices a).map f) ha.pos hsvb (by simp) (by simp) (by simp)
    (by
      intro idx hv y hy
      have hlt := ravel_lt hv
      unfold BView.deref BView.read
      simp only [Bool.false_eq_true, if_false]
      rw [if_pos (by rw [hsvb]; simp [hv.length]), hmb idx hv, proj_self hv]
      apply rd_some
      rw [List.getElem?_append_right (by simp)]
      simp only [List.length_take, List.length_zipWith, List.length_map, length_indices]
      rw [List.getElem?_drop, ← hy]
      congr 1
      omega)
  simp only at hit
  unfold ofFn
  simp only [hit]
  rw [List.zipWith_map, List.zipWith_self]

/-- Failures of compound assignment leave the left operand as it was. -/
theorem inplace_err (op : T → T → T) {a b : List Nat} (ha : Dims a) (hb : Dims b)
    (h : ¬ (Compat a b ∧ (bdims a b).prod = a.prod)) (f g : List Nat → T) :
    (Tensor.binopInPlaceM op (some (ofFn b g))) (ofFn a f) =
      (.error (if Compat a b then .runtimeError else .invalidArgument), ofFn a f) := by
  unfold Tensor.binopInPlaceM
  simp only [Option.getD_some]
  rw [ofFn_shape, ofFn_shape]
  by_cases hc : Compat a b
  · have hsb := stretches_bdims_right ha.pos hb.pos hc
    obtain ⟨vb, hvb, hsvb, hmb⟩ := bview_make hb.pos hb.lt hsb
    rw [broadcastShapes_ok ha.pos hb.pos ha.ne hc (bdims_lt64 ha hb)]
    simp only [Except.bind_ok', hvb]
    have : (shapeOf a).size ≠ vb.shape.size := by
      rw [hsvb]; simp only [shapeOf_size]
      exact fun h2 => h ⟨hc, h2.symm⟩
    rw [if_pos this, if_pos hc]
    rfl
  · rw [broadcastShapes_err hc, if_neg hc]
    rfl

/-! ### Scalars -/

theorem scalarDiv_ofFn [Div T] (s : T) (ds : List Nat) (f : List Nat → T) :
    Tensor.scalarDiv s (ofFn ds f) = .ok (ofFn ds (fun i => s / f i)) := by
  unfold Tensor.scalarDiv
  simp only [ofFn_shape, full_shapeOf, iter_ofFn, Except.bind_ok', Except.pure_eq']
  rw [List.zipWith_map, List.zipWith_self]
  rfl

theorem neg_ofFn [Mul T] [Neg T] [One T] (ds : List Nat) (f : List Nat → T) :
    (ofFn ds f).neg = .ok (ofFn ds (fun i => f i * (-1))) := map_ofFn ds f _

theorem scalarSub_ofFn [Add T] [Mul T] [Neg T] [One T] (s : T) (ds : List Nat) (f : List Nat → T) :
    Tensor.scalarSub s (ofFn ds f) = .ok (ofFn ds (fun i => f i * (-1) + s)) := by
  unfold Tensor.scalarSub
  rw [neg_ofFn]
  exact map_ofFn ds _ _

end
end SmartDNN
