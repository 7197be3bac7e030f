import Verif.Spec.Intact
import Verif.Props.Frozen
import Verif.Proofs.Bounded

/-!
# Consistent tensors: how each function keeps them (for C101)
-/

namespace SmartDNN
open Net Spec

/-- If the call returns, the result satisfies `P`. -/
def Gives {α : Type} (P : α → Prop) (r : Res α) : Prop := ∀ a, r = .ok a → P a

section combinators
variable {α β σ : Type} {P : α → Prop} {Q : β → Prop}

theorem gives_bind {m : Res β} {f : β → Res α} (hm : Gives Q m) (hf : ∀ b, Q b → Gives P (f b)) : Gives P (m >>= f) := by
  intro a h
  obtain ⟨b, h1, h2⟩ := bind_ok h
  exact hf b (hm b h1) a h2

theorem gives_any {m : Res β} {f : β → Res α} (hf : ∀ b, Gives P (f b)) : Gives P (m >>= f) :=
  gives_bind (Q := fun _ => True) (fun _ _ => trivial) fun b _ => hf b

theorem gives_pure {a : α} (h : P a) : Gives P (pure a : Res α) := by
  intro b e
  cases e
  exact h

theorem gives_ok {a : α} (h : P a) : Gives P (.ok a : Res α) := gives_pure h

theorem gives_error (e : Err) : Gives P (.error e : Res α) := by
  intro b h
  cases h

theorem gives_throw (e : Err) : Gives P (throw e : Res α) := gives_error e

theorem gives_ite {c : Prop} [Decidable c] {a b : Res α} (ha : Gives P a) (hb : Gives P b) : Gives P (if c then a else b) := by
  split
  · exact ha
  · exact hb

theorem gives_forN {I : σ → Prop} {n : Nat} {s : σ} {f : Nat → σ → Res σ} (h0 : I s) (hf : ∀ i s, I s → Gives I (f i s)) :
    Gives I (forN n s f) := fun _ h => forN_post_lt I (fun j _ s s' hs h' => hf j s hs s' h') h0 h

theorem gives_forI {I : σ → Prop} {n : Int} {s : σ} {f : Int → σ → Res σ} (h0 : I s) (hf : ∀ i s, I s → Gives I (f i s)) :
    Gives I (forI n s f) := gives_forN h0 fun i s hs => hf i s hs

theorem gives_foldlM {I : σ → Prop} {f : σ → β → Res σ} (hf : ∀ s b, I s → Gives I (f s b)) :
    ∀ (l : List β) {s : σ}, I s → Gives I (l.foldlM f s) := by
  intro l
  induction l with
  | nil => intro s h; exact gives_pure h
  | cons b l ih =>
    intro s h
    rw [List.foldlM_cons]
    exact gives_bind (hf s b h) fun s' h' => ih h'

theorem gives_doWhile {I : σ → Prop} {body : σ → Res (Bool × σ)} (hf : ∀ s, I s → Gives (fun r => I r.2) (body s)) :
    ∀ (n : Nat) {s : σ}, I s → Gives I (doWhileFuel body n s) := by
  intro n
  induction n with
  | zero => intro s _; exact gives_error _
  | succ n ih =>
    intro s h
    unfold doWhileFuel
    exact gives_bind (hf s h) fun r hr => gives_ite (ih hr) (gives_pure hr)

theorem Gives.mono {P' : α → Prop} {r : Res α} (h : Gives P r) (hp : ∀ a, P a → P' a) : Gives P' r := fun a e => hp a (h a e)

/-- The program keeps `I` of the state it runs on, also when it fails, and gives a result satisfying `P` if it returns. -/
def MGives (I : σ → Prop) (P : α → Prop) (m : Mut σ α) : Prop := ∀ s, I s → I (m s).2 ∧ Gives P (m s).1

variable {I : σ → Prop}

theorem mgives_bind {m : Mut σ β} {f : β → Mut σ α} (hm : MGives I Q m) (hf : ∀ b, Q b → MGives I P (f b)) : MGives I P (m >>= f) := by
  intro s hs
  obtain ⟨h1, h2⟩ := hm s hs
  show I (Mut.bind m f s).2 ∧ Gives P (Mut.bind m f s).1
  unfold Mut.bind
  rcases hx : m s with ⟨e | a, s'⟩
  · rw [hx] at h1
    exact ⟨h1, gives_error e⟩
  · rw [hx] at h1 h2
    exact hf a (h2 a rfl) s' h1

theorem mgives_any {m : Mut σ β} {f : β → Mut σ α} (hm : MGives I (fun _ => True) m) (hf : ∀ b, MGives I P (f b)) :
    MGives I P (m >>= f) := mgives_bind hm fun b _ => hf b

theorem mgives_pure {a : α} (h : P a) : MGives I P (pure a : Mut σ α) := fun _ hs => ⟨hs, gives_pure h⟩

theorem mgives_get : MGives I I (Mut.get : Mut σ σ) := fun _ hs => ⟨hs, gives_ok hs⟩

theorem mgives_set {s : σ} (h : I s) : MGives I (fun _ => True) (Mut.set s : Mut σ Unit) := fun _ _ => ⟨h, gives_ok trivial⟩

theorem mgives_modify {f : σ → σ} (h : ∀ s, I s → I (f s)) : MGives I (fun _ => True) (Mut.modify f : Mut σ Unit) :=
  fun s hs => ⟨h s hs, gives_ok trivial⟩

theorem mgives_lift {r : Res α} (h : Gives P r) : MGives I P (Mut.lift r : Mut σ α) := fun _ hs => ⟨hs, h⟩

theorem mgives_ite {c : Prop} [Decidable c] {a b : Mut σ α} (ha : MGives I P a) (hb : MGives I P b) : MGives I P (if c then a else b) := by
  split
  · exact ha
  · exact hb

theorem mgives_forN {body : Nat → Mut σ Unit} (h : ∀ i, MGives I (fun _ => True) (body i)) (n : Nat) :
    MGives I (fun _ => True) (Mut.forN n body) := by
  induction n with
  | zero => exact fun s hs => ⟨hs, fun _ _ => trivial⟩
  | succ n ih =>
    rw [Mut.forN_succ]
    exact mgives_bind ih fun _ _ => h n

theorem MGives.mono {P' : α → Prop} {m : Mut σ α} (h : MGives I P m) (hp : ∀ a, P a → P' a) : MGives I P' m :=
  fun s hs => ⟨(h s hs).1, (h s hs).2.mono hp⟩

theorem MGives.exec {m : Mut σ Unit} (h : MGives I (fun _ => True) m) {s : σ} (hs : I s) : Gives I (m.exec s) := by
  intro t e
  have := (h s hs).1
  unfold Mut.exec at e
  rcases hm : m s with ⟨e' | u, s'⟩
  · rw [hm] at e
    cases e
  · rw [hm] at e this
    cases e
    exact this

end combinators

/-! ### Shapes -/

/-- The shape a constructor builds. -/
def GoodShape (s : Shape) : Prop := Shape.make s.dims = .ok s

theorem good_make (ds : List Int) : Gives GoodShape (Shape.make ds) := by
  intro s h
  have : s.dims = ds := by
    unfold Shape.make at h
    obtain ⟨u, -, h⟩ := bind_ok h
    cases h
    rfl
  unfold GoodShape
  rw [this]
  exact h

theorem good_broadcast (a b : Shape) : Gives GoodShape (broadcastShapes a b) := by
  unfold broadcastShapes
  exact gives_any fun r => good_make _

theorem reshapeSize_eq (ds : List Int) : ∀ (n k : Nat), ds.foldlM (fun newSize d =>
    if newSize > (sizeMod - 1) / toSizeT d then Except.error Err.overflowError
    else Except.ok ((newSize * toSizeT d) % sizeMod)) n = .ok k → ds.foldl (fun acc d => (acc * toSizeT d) % sizeMod) n = k := by
  induction ds with
  | nil => intro n k h; cases h; rfl
  | cons d ds ih =>
    intro n k h
    rw [List.foldlM_cons] at h
    obtain ⟨m, h1, h2⟩ := bind_ok h
    split at h1
    · cases h1
    · cases h1
      exact ih _ _ h2

theorem reshape_good {s s' : Shape} {ds : List Int} (hs : GoodShape s) (h : s.reshape ds = .ok s') : GoodShape s' ∧ s'.size = s.size := by
  unfold Shape.reshape Mut.exec at h
  rw [reshapeM_eq] at h
  cases hv : validateDimensions ds with
  | error e => rw [hv] at h; cases h
  | ok u =>
    rw [hv] at h
    dsimp only at h
    cases hr : reshapeSize ds with
    | error e => rw [hr] at h; cases h
    | ok n =>
      rw [hr] at h
      dsimp only at h
      by_cases hn : s.size = n
      · rw [if_pos hn] at h
        cases h
        refine ⟨?_, rfl⟩
        have : calculateSize ds = s.size := by rw [hn]; exact reshapeSize_eq ds 1 n hr
        unfold GoodShape Shape.make
        dsimp only
        rw [hv, this]
        rfl
      · rw [if_neg hn] at h
        cases h

/-! ### Tensors -/

section tensors
variable {T : Type}

theorem wr_gives_len {d : List T} {i : Int} {x : T} : Gives (fun d' => d'.length = d.length) (wr d i x) := by
  intro d' h
  unfold wr at h
  split at h
  · cases h
    simp
  · cases h

theorem intact_set {t : Tensor T} (h : Intact t) (i : Int) (x : T) : Gives Intact (t.set i x) :=
  gives_bind wr_gives_len fun _ hd => gives_pure ⟨h.1, hd.trans h.2⟩

theorem intact_setAt {t : Tensor T} (h : Intact t) (i : List Int) (x : T) : Gives Intact (t.setAt i x) :=
  gives_any fun _ => gives_bind wr_gives_len fun _ hd => gives_pure ⟨h.1, hd.trans h.2⟩

theorem intact_modifyAt {t : Tensor T} (h : Intact t) (i : List Int) (f : T → T) : Gives Intact (t.modifyAt i f) :=
  gives_any fun _ => gives_any fun _ => gives_bind wr_gives_len fun _ hd => gives_pure ⟨h.1, hd.trans h.2⟩

theorem intact_full {s : Shape} (h : GoodShape s) (v : T) : Intact (Tensor.full s v) := ⟨h, by simp [Tensor.full]⟩

theorem intact_zeros [Zero T] {s : Shape} (h : GoodShape s) : Intact (Tensor.zeros s : Tensor T) := ⟨h, by simp [Tensor.zeros]⟩

theorem intact_fromPtr {s : Shape} (h : GoodShape s) (src : List T) : Gives Intact (Tensor.fromPtr s src) := by
  intro t e
  unfold Tensor.fromPtr at e
  split at e
  · next hl =>
    cases e
    exact ⟨h, by simp [hl]⟩
  · cases e

theorem intact_fromList [Zero T] {s : Shape} (h : GoodShape s) (src : List T) : Gives Intact (Tensor.fromList s src) := by
  intro t e
  unfold Tensor.fromList at e
  split at e
  · next hl =>
    cases e
    exact ⟨h, by simp [hl]⟩
  · cases e

theorem intact_reshape {t : Tensor T} (h : Intact t) (ds : List Int) : Gives Intact (t.reshape ds) := by
  intro t' e
  unfold Tensor.reshape Mut.exec Tensor.reshapeM at e
  rcases hm : Shape.reshapeM ds t.shape with ⟨e' | u, s'⟩
  · rw [hm] at e
    cases e
  · rw [hm] at e
    cases e
    obtain ⟨g1, g2⟩ := reshape_good (s' := s') (ds := ds) h.1 (by unfold Shape.reshape Mut.exec; rw [hm])
    exact ⟨g1, h.2.trans g2.symm⟩

theorem intact_reshaped {t : Tensor T} (h : Intact t) (ds : List Int) : Gives Intact (t.reshaped ds) :=
  gives_any fun _ => intact_reshape h _

theorem iter_len (t : Tensor T) : Gives (fun xs => xs.length = t.shape.size) t.iter := by
  intro xs e
  unfold Tensor.iter at e
  split at e
  · next hl => cases e; simp [hl]
  · cases e

theorem intact_map {t : Tensor T} (h : Intact t) (f : T → T) : Gives Intact (t.map f) :=
  gives_bind (iter_len t) fun xs hx => gives_pure ⟨h.1, by simpa using hx⟩

theorem intact_mapInPlace {t : Tensor T} (h : Intact t) (f : T → T) : Gives Intact (t.mapInPlace f) :=
  gives_bind (iter_len t) fun xs hx => gives_pure ⟨h.1, by simp [hx, h.2]⟩

theorem intact_fill {t : Tensor T} (h : Intact t) (v : T) : Gives Intact (t.fill v) := by
  intro t' e
  unfold Tensor.fill at e
  split at e
  · cases e
    exact ⟨h.1, by simp [h.2]⟩
  · cases e

theorem intact_slice (t : Tensor T) (dim index : Int) : Gives Intact (t.slice dim index) := by
  unfold Tensor.slice
  refine gives_any fun st => gives_ite (gives_bind (good_make _) fun s hs => gives_ite (intact_fromPtr hs _) (gives_throw _)) (gives_throw _)

theorem transform2_len (op : T → T → T) (xs ys out : List T) : Gives (fun d => d.length = out.length) (Tensor.transform2 op xs ys out) := by
  intro d e
  unfold Tensor.transform2 at e
  split at e
  · cases e
  · split at e
    · cases e
    · cases e
      simp only [List.length_append, List.length_zipWith, List.length_drop]
      omega

theorem intact_binop [Zero T] (op : T → T → T) (l r : Tensor T) : Gives Intact (Tensor.binop op l r) := by
  unfold Tensor.binop
  refine gives_bind (good_broadcast _ _) fun rs hrs => gives_any fun lv => gives_any fun rv => ?_
  dsimp only
  by_cases hc : lv.shape.size ≠ rv.shape.size
  · rw [if_pos hc]
    exact gives_error _
  · rw [if_neg hc]
    exact gives_any fun xs => gives_any fun ys => gives_bind (transform2_len op xs ys _) fun d hd =>
      gives_pure ⟨hrs, hd.trans (by simp [Tensor.zeros])⟩

/-- The tensor after `l op= r` is intact, whatever the outcome. -/
theorem intact_inPlace (op : T → T → T) (r : Option (Tensor T)) : MGives Intact (fun _ => True) (Tensor.binopInPlaceM op r) := by
  intro l h
  refine ⟨?_, fun _ _ => trivial⟩
  unfold Tensor.binopInPlaceM
  split
  · exact h
  · next rv _ =>
    dsimp only
    refine (mgives_forN (I := fun st : Tensor T × ViewIter => Intact st.1) (fun k => ?_) l.shape.size (l, ViewIter.begin rv.shape) h).1
    refine mgives_bind mgives_get fun st hst => mgives_any (mgives_lift fun _ _ => trivial) fun x =>
      mgives_any (mgives_lift fun _ _ => trivial) fun y => mgives_bind (mgives_lift wr_gives_len) fun d hd => mgives_set ?_
    exact ⟨hst.1, hd.trans hst.2⟩

theorem intact_addAssign (op : T → T → T) (r : Option (Tensor T)) {l : Tensor T} (h : Intact l) :
    Gives Intact (Tensor.binopInPlace op l r) := (intact_inPlace op r).exec h

theorem intact_scalarDiv [Div T] (s : T) {t : Tensor T} (h : Intact t) : Gives Intact (Tensor.scalarDiv s t) := by
  unfold Tensor.scalarDiv
  exact gives_bind (iter_len _) fun xs hx => gives_bind (iter_len _) fun ys hy =>
    gives_pure ⟨h.1, by simp only [List.length_zipWith, hx, hy]; simp [Tensor.full]⟩

theorem intact_sumAll [Zero T] [Add T] (t : Tensor T) : Gives Intact t.sumAll := by
  unfold Tensor.sumAll
  exact gives_any fun xs => gives_bind (good_make _) fun s hs => gives_pure (intact_full hs _)

theorem intact_sumAxis [Zero T] [Add T] (t : Tensor T) (axis : Nat) : Gives Intact (t.sumAxis axis) := by
  unfold Tensor.sumAxis
  by_cases h1 : axis ≥ t.shape.rank
  · rw [if_pos h1]
    exact gives_error _
  · rw [if_neg h1]
    refine gives_ite (intact_sumAll t) (gives_bind (good_make _) fun s hs => gives_bind (Q := fun st : Tensor T × List Int => Intact st.1) ?_ fun st hst => gives_pure hst)
    exact gives_forN (I := fun st : Tensor T × List Int => Intact st.1) (intact_full hs _) fun i st hst =>
      gives_any fun x => gives_bind (intact_modifyAt hst _ _) fun r hr => gives_pure hr

theorem intact_sumAxes [Zero T] [Add T] (t : Tensor T) (axes : List Nat) : Gives Intact (t.sumAxes axes) := by
  unfold Tensor.sumAxes
  refine gives_any fun mk => gives_bind (good_make _) fun s hs =>
    gives_bind (Q := fun st : Tensor T × List Int × List Int => Intact st.1) ?_ fun st hst => gives_any fun fs => intact_reshape hst _
  refine gives_doWhile (I := fun st : Tensor T × List Int × List Int => Intact st.1) ?_ _ (intact_full hs _)
  intro st hst
  exact gives_any fun _ => gives_any fun _ => gives_any fun _ => gives_any fun _ => gives_bind (intact_set hst _ _) fun r hr => gives_pure hr

theorem intact_applyPair [Zero T] {a : Tensor T} (h : Intact a) (b : Tensor T) (f : T → T → T) : Gives Intact (a.applyPair b f) := by
  unfold Tensor.applyPair
  by_cases hc : (!(a.shape.beq b.shape)) = true
  · rw [if_pos hc]
    exact gives_error _
  · rw [if_neg hc]
    exact gives_forN (intact_zeros h.1) fun i s hs => gives_any fun _ => gives_any fun _ => intact_set hs _ _

theorem intact_meanAll [Zero T] [One T] [Add T] [Mul T] [Div T] [NatCast T] (t : Tensor T) : Gives Intact t.meanAll :=
  gives_bind (intact_sumAll t) fun _ hs => intact_map hs _

theorem intact_meanAxes [Zero T] [One T] [Add T] [Mul T] [Div T] [NatCast T] [IntCast T] {t : Tensor T} (h : Intact t) (axes : List Nat) :
    Gives Intact (t.meanAxes axes) := by
  unfold Tensor.meanAxes
  refine gives_ite (intact_meanAll t) ?_
  exact gives_bind (gives_foldlM (fun s b _ => gives_ite (gives_error _) (intact_sumAxis s b)) _ h) fun r hr =>
    gives_bind (intact_map hr _) fun r hr => intact_reshaped hr _

theorem intact_varianceAxes [Zero T] [Add T] [Sub T] [Mul T] [Div T] [IntCast T] (t : Tensor T) {m : Tensor T} (hm : Intact m)
    (axes : List Nat) : Gives Intact (t.varianceAxes m axes) := by
  unfold Tensor.varianceAxes
  exact gives_any fun _ => gives_any fun _ => gives_any fun _ => gives_any fun _ => gives_any fun _ => gives_any fun _ =>
    gives_forN (intact_zeros hm.1) fun i s hs => gives_any fun _ => intact_set hs _ _

theorem intact_varianceAll [Zero T] [One T] [Add T] [Sub T] [Mul T] [Div T] [NatCast T] (t m : Tensor T) : Gives Intact (t.varianceAll m) := by
  unfold Tensor.varianceAll
  exact gives_any fun _ => gives_any fun _ => gives_bind (intact_sumAll _) fun _ hs => intact_map hs _

theorem intact_transpose [Zero T] (t : Tensor T) (i j : Nat) : Gives Intact (t.transpose i j) := by
  unfold Tensor.transpose
  dsimp only
  by_cases hc : i ≥ t.shape.rank ∨ j ≥ t.shape.rank
  · rw [if_pos hc]
    exact gives_error _
  · rw [if_neg hc]
    exact gives_bind (good_make _) fun s hs => gives_forN (intact_zeros hs) fun i s hs => gives_any fun _ => gives_any fun _ => intact_setAt hs _ _

section products
variable [Zero T] [Add T] [Mul T]

theorem intact_dotProduct (a b : Tensor T) : Gives Intact (a.dotProduct b) := by
  unfold Tensor.dotProduct
  refine gives_any fun a0 => gives_any fun b0 => ?_
  by_cases hc : a0 ≠ b0
  · rw [if_pos hc]; exact gives_error _
  · rw [if_neg hc]
    exact gives_any fun _ => gives_bind (good_make _) fun s hs => intact_fromList hs _

theorem intact_matrixVectorMul (a b : Tensor T) : Gives Intact (a.matrixVectorMul b) := by
  unfold Tensor.matrixVectorMul
  refine gives_any fun m => gives_any fun n => gives_any fun b0 => ?_
  by_cases hc : n ≠ b0
  · rw [if_pos hc]; exact gives_error _
  · rw [if_neg hc]
    exact gives_bind (good_make _) fun s hs => gives_forI (intact_full hs _) fun i s hs => gives_any fun _ => intact_set hs _ _

theorem intact_matrixMatrixMul (a b : Tensor T) : Gives Intact (a.matrixMatrixMul b) := by
  unfold Tensor.matrixMatrixMul
  refine gives_any fun k => gives_any fun b0 => ?_
  by_cases hc : k ≠ b0
  · rw [if_pos hc]; exact gives_error _
  · rw [if_neg hc]
    exact gives_any fun _ => gives_any fun _ => gives_bind (good_make _) fun s hs => gives_forI (intact_full hs _) fun i s hs =>
      gives_forI hs fun j s hs => gives_any fun _ => intact_set hs _ _

theorem intact_matrixMatrixMulSlice (a : SView) (abuf : List T) (b : SView) (bbuf : List T) :
    Gives Intact (Tensor.matrixMatrixMulSlice a abuf b bbuf) := by
  unfold Tensor.matrixMatrixMulSlice
  by_cases h0 : a.shape.rank ≠ 2 ∨ b.shape.rank ≠ 2
  · rw [if_pos h0]; exact gives_error _
  · rw [if_neg h0]
    refine gives_any fun k => gives_any fun b0 => ?_
    by_cases hc : k ≠ b0
    · rw [if_pos hc]; exact gives_error _
    · rw [if_neg hc]
      exact gives_any fun _ => gives_any fun _ => gives_bind (good_make _) fun s hs => gives_forI (intact_full hs _) fun i s hs =>
        gives_forI hs fun j s hs => gives_any fun _ => intact_set hs _ _

theorem intact_matmul2D3D (a b : Tensor T) : Gives Intact (a.matmul2D3D b) := by
  unfold Tensor.matmul2D3D
  by_cases h0 : a.shape.rank ≠ 2 ∨ b.shape.rank ≠ 3
  · rw [if_pos h0]; exact gives_error _
  · rw [if_neg h0]
    refine gives_any fun k => gives_any fun b0 => ?_
    by_cases hc : k ≠ b0
    · rw [if_pos hc]; exact gives_error _
    · rw [if_neg hc]
      exact gives_any fun _ => gives_any fun _ => gives_any fun _ => gives_bind (good_make _) fun s hs =>
        gives_forI (intact_full hs _) fun i s hs => gives_forI hs fun j s hs => gives_forI hs fun k s hs => gives_any fun _ => intact_setAt hs _ _

theorem intact_matmul3D2D (a b : Tensor T) : Gives Intact (a.matmul3D2D b) := by
  unfold Tensor.matmul3D2D
  by_cases h0 : a.shape.rank ≠ 3 ∨ b.shape.rank ≠ 2
  · rw [if_pos h0]; exact gives_error _
  · rw [if_neg h0]
    refine gives_any fun k => gives_any fun b0 => ?_
    by_cases hc : k ≠ b0
    · rw [if_pos hc]; exact gives_error _
    · rw [if_neg hc]
      exact gives_any fun _ => gives_any fun _ => gives_any fun _ => gives_bind (good_make _) fun s hs =>
        gives_forI (intact_full hs _) fun i s hs => gives_forI hs fun j s hs => gives_forI hs fun k s hs => gives_any fun _ => intact_setAt hs _ _

theorem intact_batchedMatmul (a b : Tensor T) : Gives Intact (a.batchedMatmul b) := by
  unfold Tensor.batchedMatmul
  refine gives_ite (intact_matmul3D2D a b) (gives_ite (intact_matmul2D3D a b) (gives_ite (gives_throw _) (gives_ite (gives_throw _) ?_)))
  refine gives_any fun ka => gives_any fun kb => ?_
  by_cases hc : ka ≠ kb
  · rw [if_pos hc]; exact gives_error _
  · rw [if_neg hc]
    refine gives_any fun m => gives_any fun n => gives_bind (good_make _) fun s hs => gives_bind (Q := fun st : Tensor T × List Int => Intact st.1) ?_ fun st hst => gives_pure hst
    refine gives_doWhile (I := fun st : Tensor T × List Int => Intact st.1) ?_ _ (intact_full hs _)
    intro st hst
    exact gives_bind (gives_forI hst fun i s hs => gives_forI hs fun j s hs => gives_any fun _ => intact_setAt hs _ _) fun r hr => gives_pure hr

theorem intact_matmul (a b : Tensor T) : Gives Intact (a.matmul b) := by
  unfold Tensor.matmul
  refine gives_ite (intact_dotProduct a b) (gives_ite (intact_matrixMatrixMul a b) (gives_ite ?_ (gives_ite (intact_matrixVectorMul a b)
    (gives_ite (intact_batchedMatmul a b) (gives_throw _)))))
  exact gives_any fun _ => gives_any fun _ => gives_bind (intact_matrixMatrixMul _ _) fun r hr => gives_any fun _ => intact_reshaped hr _

end products

theorem forI_append_len {n : Int} {k : Nat} {f : Int → List T → Res (List T)} (hf : ∀ i l, Gives (fun l' => l'.length = l.length + k) (f i l))
    (l : List T) : Gives (fun l' => l'.length = l.length + n.toNat * k) (forI n l f) := by
  intro l' h
  exact forN_post_idx (fun j s => s.length = l.length + j * k) (fun j s s' hs h => by
    rw [hf _ _ s' h, hs, Nat.succ_mul]
    omega) (by simp) h

theorem intact_identity [Zero T] [One T] (n : Int) (hn : n < 2 ^ 31) : Gives Intact (Tensor.identity n : Res (Tensor T)) := by
  unfold Tensor.identity
  refine gives_bind (Q := fun s => GoodShape s ∧ s.size = n.toNat * n.toNat) ?_ fun s hs =>
    gives_bind (forI_append_len (k := n.toNat) (fun i l => (forI_append_len (k := 1) (fun j l => gives_pure (by simp)) l).mono fun a ha => by simpa using ha) [])
      fun out hout => gives_pure ⟨hs.1, by simpa [hs.2] using hout⟩
  intro s h
  refine ⟨good_make _ s h, ?_⟩
  unfold Shape.make at h
  obtain ⟨u, hv, h⟩ := bind_ok h
  cases h
  have hp : 0 < n := by
    unfold validateDimensions at hv
    by_contra hc
    simp [hc] at hv
  obtain ⟨m, rfl⟩ := Int.eq_ofNat_of_zero_le hp.le
  have hm : m < 2 ^ 31 := by exact_mod_cast hn
  have ht : toSizeT (m : Int) = m := by
    unfold toSizeT
    rw [Int.emod_eq_of_lt (by omega) (by unfold sizeMod; omega)]
    rfl
  show calculateSize [(m : Int), m] = _
  have hmm : m * m < sizeMod := by
    have : m * m ≤ 2 ^ 31 * 2 ^ 31 := Nat.mul_le_mul hm.le hm.le
    unfold sizeMod
    omega
  have hm' : m < sizeMod := by unfold sizeMod; omega
  simp [calculateSize, ht, Nat.mod_eq_of_lt hmm, Nat.mod_eq_of_lt hm']

theorem intact_createRandom {ρ : Type} [LT T] [DecidableLT T] [Zero T] (E : Engine ρ T) {s : Shape} (hs : GoodShape s) (lo hi : T) (r : ρ) :
    Gives (fun p => Intact p.1) (createRandom E s lo hi r) := by
  unfold createRandom
  exact gives_forN (I := fun st : Tensor T × ρ => Intact st.1) (intact_zeros hs) fun i st hst => gives_bind (intact_set hst _ _) fun t ht => gives_pure ht

end tensors

/-! ### Activations, losses, layers -/

section
variable {T : Type}

theorem intactOpt_none : IntactOpt (none : Option (Tensor T)) := fun _ h => by cases h
theorem intactOpt_some {t : Tensor T} (h : Intact t) : IntactOpt (some t) := fun _ e => by cases e; exact h
theorem gives_deref {o : Option (Tensor T)} (h : IntactOpt o) : Gives Intact (derefOpt o) := by
  cases o with
  | none => exact gives_error _
  | some t => exact gives_ok (h t rfl)

theorem gives_true {α : Type} {r : Res α} : Gives (fun _ => True) r := fun _ _ => trivial

theorem intact_divScalar [Zero T] [DecidableEq T] [Div T] {t : Tensor T} (h : Intact t) (s : T) : Gives Intact (t.divScalar s) := by
  unfold Tensor.divScalar
  exact gives_ite (gives_throw _) (intact_map h _)

section act
variable [Zero T] [One T] [Add T] [Sub T] [Mul T] [Div T] [Neg T] [NatCast T] [LT T] [DecidableLT T] [LE T] [DecidableLE T] [MathFn T]

theorem intact_softmaxForward {t : Tensor T} (h : Intact t) : Gives Intact (Act.softmaxForward t) := by
  unfold Act.softmaxForward
  by_cases hr : t.shape.rank < 2
  · rw [if_pos hr]; exact gives_error _
  · rw [if_neg hr]
    refine gives_any fun bs => gives_any fun ft => gives_forI (intact_zeros h.1) fun b o ho => gives_any fun mv => ?_
    refine gives_bind (Q := fun st : Tensor T × T => Intact st.1) ?_ fun st hst => gives_forI hst fun i o ho => gives_any fun _ => intact_set ho _ _
    exact gives_forI (I := fun st : Tensor T × T => Intact st.1) ho fun i st hst => gives_any fun _ => gives_bind (intact_set hst _ _) fun o ho => gives_pure ho

theorem intact_softmaxBackward {t : Tensor T} (h : Intact t) (g : Tensor T) : Gives Intact (Act.softmaxBackward t g) := by
  unfold Act.softmaxBackward
  by_cases hr : t.shape.rank < 2 ∨ g.shape.rank < 2
  · rw [if_pos hr]; exact gives_error _
  · rw [if_neg hr]
    exact gives_any fun fo => gives_any fun bs => gives_any fun ft => gives_forI (intact_zeros h.1) fun b o ho =>
      gives_forI ho fun i o ho => gives_any fun _ => intact_set ho _ _

theorem intact_actForward (a : Act T) {t : Tensor T} (h : Intact t) : Gives Intact (a.forward t) := by
  cases a <;> first | exact intact_map h _ | exact intact_softmaxForward h

theorem intact_actBackward (a : Act T) {x : Tensor T} (h : Intact x) (g : Tensor T) : Gives Intact (a.backward x g) := by
  cases a
  · exact gives_any fun _ => intact_binop _ _ _
  · exact intact_applyPair h _ _
  · exact gives_any fun _ => gives_any fun _ => gives_any fun _ => intact_binop _ _ _
  · exact gives_any fun _ => intact_binop _ _ _
  · exact intact_applyPair h _ _
  · exact intact_applyPair h _ _
  · exact intact_softmaxBackward h g

end act

section loss
variable [Zero T] [One T] [Add T] [Sub T] [Mul T] [Div T] [Neg T] [NatCast T] [IntCast T] [LT T] [DecidableLT T] [DecidableEq T] [MathFn T]

theorem intact_compute (L : Loss T) (p t : Tensor T) : Gives Intact (L.compute p t) := by
  cases L with
  | mse => exact gives_any fun _ => gives_any fun _ => gives_any fun _ => gives_bind (intact_sumAll _) fun _ hs => intact_divScalar hs _
  | crossEntropy eps =>
    show Gives Intact (do
      if !(p.shape.beq t.shape) then throw .invalidArgument
      let batchSize ← p.shape.get 0
      let numClasses ← p.shape.get 1
      let loss ← forI batchSize (0 : T) (fun i loss =>
        forI numClasses loss (fun j loss => do
          let x ← p.at_ [i, j]
          let y ← t.at_ [i, j]
          return loss - y * MathFn.log (Loss.clamp eps x)))
      let sh ← Shape.make [1]
      return Tensor.full sh (loss / (batchSize : T)) : Res (Tensor T))
    by_cases hr : (!(p.shape.beq t.shape)) = true
    · rw [if_pos hr]; exact gives_error _
    · rw [if_neg hr]
      exact gives_any fun _ => gives_any fun _ => gives_any fun _ => gives_bind (good_make _) fun s hs => gives_pure (intact_full hs _)

theorem intact_gradient (L : Loss T) {p : Tensor T} (h : Intact p) (t : Tensor T) : Gives Intact (L.gradient p t) := by
  cases L with
  | mse => exact gives_any fun _ => gives_bind (intact_binop _ _ _) fun _ h1 => gives_bind (intact_map h1 _) fun _ h2 => intact_divScalar h2 _
  | crossEntropy eps =>
    show Gives Intact (do
      if !(p.shape.beq t.shape) then throw .invalidArgument
      let batchSize ← p.shape.get 0
      let numClasses ← p.shape.get 1
      let grad ← forI batchSize (Tensor.zeros p.shape) (fun i grad =>
        forI numClasses grad (fun j grad => do
          let x ← p.at_ [i, j]
          let y ← t.at_ [i, j]
          grad.setAt [i, j] (Loss.clamp eps x - y)))
      grad.divScalar (batchSize : T) : Res (Tensor T))
    by_cases hr : (!(p.shape.beq t.shape)) = true
    · rw [if_pos hr]; exact gives_error _
    · rw [if_neg hr]
      exact gives_any fun _ => gives_any fun _ => gives_bind (gives_forI (intact_zeros h.1) fun i g hg => gives_forI hg fun j g hg =>
        gives_any fun _ => gives_any fun _ => intact_setAt hg _ _) fun g hg => intact_divScalar hg _

end loss

/-! ### Layers -/

theorem intact_rand {ρ : Type} [LT T] [DecidableLT T] [Zero T] [One T] (E : Engine ρ T) {s : Shape} (hs : GoodShape s) (r : ρ) :
    Gives (fun p => Intact p.1) (Tensor.rand E s r) := intact_createRandom E hs _ _ r

theorem intact_ensure2D {t : Tensor T} (h : Intact t) : Gives Intact (FC.ensure2D t) := by
  unfold FC.ensure2D
  exact gives_ite (gives_any fun _ => intact_reshaped h _) (gives_ok h)

theorem intact_fcForward [Zero T] [Add T] [Mul T] {x : Tensor T} (hx : Intact x) : MGives IntactFC Intact (FC.forward x) := by
  unfold FC.forward
  refine mgives_any (mgives_modify fun l h => { h with input := intactOpt_some hx }) fun _ => mgives_bind mgives_get fun l hl => mgives_lift ?_
  unfold FC.affine
  refine gives_any fun _ => gives_any fun _ => gives_bind (intact_binop _ _ _) fun o ho => ?_
  exact gives_ite (gives_any fun _ => intact_reshaped ho _) (gives_pure ho)

theorem intact_fcBackward [Zero T] [Add T] [Mul T] {g : Tensor T} (hg : Intact g) : MGives IntactFC Intact (FC.backward g) := by
  unfold FC.backward
  refine mgives_bind mgives_get fun l hl => ?_
  split
  · exact mgives_lift (gives_error _)
  · next x hx =>
    refine mgives_bind (mgives_lift (intact_ensure2D (hl.input x hx))) fun x' hx' => mgives_bind (mgives_lift (intact_ensure2D hg)) fun g' hg' => ?_
    refine mgives_bind (mgives_lift (P := Intact) ?_) fun wg hwg => mgives_any (mgives_modify fun l h => { h with weightGradients := intactOpt_some hwg }) fun _ =>
      mgives_bind (mgives_lift (P := Intact) ?_) fun bg hbg => mgives_any (mgives_modify fun l h => { h with biasGradients := intactOpt_some hbg }) fun _ => mgives_lift ?_
    · exact gives_any fun _ => intact_matmul _ _
    · exact gives_bind (intact_sumAxis _ _) fun s hs => gives_any fun _ => intact_reshaped hs _
    · exact gives_any fun _ => intact_matmul _ _

theorem intact_flattenForward {x : Tensor T} (hx : Intact x) : MGives (fun _ => True) Intact (Flatten.forward x) := by
  unfold Flatten.forward
  refine mgives_ite (mgives_lift (gives_error _)) (mgives_ite (mgives_pure hx) ?_)
  exact mgives_any (mgives_modify fun _ _ => trivial) fun _ => mgives_any (mgives_lift gives_true) fun _ => mgives_lift (intact_reshaped hx _)

theorem intact_flattenBackward {g : Tensor T} (hg : Intact g) : MGives (fun _ => True) Intact (Flatten.backward g) := by
  unfold Flatten.backward
  exact mgives_any (mgives_get.mono fun _ _ => trivial) fun _ => mgives_any (mgives_lift gives_true) fun _ => mgives_lift (intact_reshape hg _)

theorem intact_poolForward [Zero T] [LT T] [DecidableLT T] {x : Tensor T} (hx : Intact x) :
    MGives (fun l : MaxPool T => IntactOpt l.input) Intact (MaxPool.forward x) := by
  unfold MaxPool.forward
  refine mgives_ite (mgives_lift (gives_error _)) ?_
  refine mgives_any (mgives_modify fun _ _ => intactOpt_some hx) fun _ => mgives_bind mgives_get fun l hl => mgives_lift ?_
  unfold MaxPool.pool
  exact gives_any fun _ => gives_any fun _ => gives_any fun _ => gives_any fun _ => gives_any fun _ => gives_any fun _ =>
    gives_bind (good_make _) fun s hs => gives_forI (intact_zeros hs) fun _ o ho => gives_forI ho fun _ o ho => gives_forI ho fun _ o ho =>
      gives_forI ho fun _ o ho => gives_any fun _ => intact_setAt ho _ _

theorem intact_poolBackward [Zero T] [Add T] [LT T] [DecidableLT T] (g : Tensor T) :
    MGives (fun l : MaxPool T => IntactOpt l.input) Intact (MaxPool.backward g) := by
  unfold MaxPool.backward
  refine mgives_bind mgives_get fun l hl => ?_
  split
  · exact mgives_lift (gives_error _)
  · next x hx =>
    refine mgives_lift ?_
    unfold MaxPool.unpool
    exact gives_any fun _ => gives_any fun _ => gives_any fun _ => gives_any fun _ => gives_forI (intact_full (hl x hx).1 _) fun _ o ho =>
      gives_forI ho fun _ o ho => gives_forI ho fun _ o ho => gives_forI ho fun _ o ho => gives_any fun _ => gives_any fun _ => intact_modifyAt ho _ _

theorem intact_dropoutForward {ρ : Type} [Zero T] [One T] [Sub T] [Mul T] [Div T] [LT T] [DecidableLT T] (E : Engine ρ T) (tr : Bool)
    {x : Tensor T} (hx : Intact x) : MGives (fun s : Dropout T × ρ => IntactOpt s.1.mask) Intact (Dropout.forward E tr x) := by
  unfold Dropout.forward
  refine mgives_ite ?_ (mgives_pure hx)
  refine mgives_bind mgives_get fun s hs => mgives_bind (mgives_lift (intact_rand E hx.1 s.2)) fun m hm =>
    mgives_any (mgives_set (intactOpt_some hm)) fun _ => mgives_bind (mgives_lift (intact_map hm _)) fun k hk =>
    mgives_any (mgives_modify fun _ _ => intactOpt_some hk) fun _ => mgives_bind (mgives_lift (intact_binop _ _ _)) fun _ h => mgives_lift (intact_map h _)

theorem intact_dropoutBackward [Zero T] [Mul T] (tr : Bool) {g : Tensor T} (hg : Intact g) :
    MGives (fun l : Dropout T => IntactOpt l.mask) Intact (Dropout.backward tr g) := by
  unfold Dropout.backward
  exact mgives_bind mgives_get fun l hl => mgives_any (mgives_lift gives_true) fun _ =>
    mgives_ite (mgives_lift (gives_error _)) (mgives_ite (mgives_lift (intact_binop _ _ _)) (mgives_pure hg))

section act
variable [Zero T] [One T] [Add T] [Sub T] [Mul T] [Div T] [Neg T] [NatCast T] [IntCast T] [LT T] [DecidableLT T] [LE T] [DecidableLE T] [MathFn T]

theorem intact_actLayerForward {x : Tensor T} (hx : Intact x) : MGives (fun l : ActLayer T => IntactOpt l.input) Intact (ActLayer.forward x) := by
  unfold ActLayer.forward
  exact mgives_any (mgives_modify fun _ _ => intactOpt_some hx) fun _ => mgives_bind mgives_get fun l hl => mgives_lift (intact_actForward _ hx)

theorem intact_actLayerBackward (g : Tensor T) : MGives (fun l : ActLayer T => IntactOpt l.input) Intact (ActLayer.backward g) := by
  unfold ActLayer.backward
  exact mgives_bind mgives_get fun l hl => mgives_bind (mgives_lift (gives_deref hl)) fun x hx => mgives_lift (intact_actBackward _ hx g)
end act

section bn
theorem intact_rfb {t : Tensor T} (h : Intact t) (s : Shape) : Gives Intact (BatchNorm.reshapeForBroadcast t s) := by
  unfold BatchNorm.reshapeForBroadcast
  exact gives_any fun _ => gives_any fun _ => gives_ite (gives_any fun _ => intact_reshaped h _) (gives_any fun _ => intact_reshaped h _)

variable [Zero T] [One T] [Add T] [Sub T] [Mul T] [Div T] [Neg T] [NatCast T] [IntCast T] [DecidableEq T]
  [LT T] [DecidableLT T] [MathFn T]

omit [One T] [Mul T] [Neg T] [NatCast T] [IntCast T] [DecidableEq T] [LT T] [DecidableLT T] in
theorem intact_normalise (x m v : Tensor T) (e : T) : Gives Intact (BatchNorm.normalise x m v e) := by
  unfold BatchNorm.normalise
  exact gives_any fun _ => gives_any fun _ => gives_any fun _ => intact_binop _ _ _

omit [Neg T] [NatCast T] [IntCast T] [DecidableEq T] [LT T] [DecidableLT T] [Div T] [MathFn T] [One T] [Sub T] in
theorem intact_scaleShift (x g b : Tensor T) : Gives Intact (BatchNorm.scaleShift x g b) := gives_any fun _ => intact_binop _ _ _

omit [Neg T] [NatCast T] [IntCast T] [DecidableEq T] [LT T] [DecidableLT T] [Div T] [MathFn T] in
theorem intact_blend (m : T) (x g : Tensor T) : Gives Intact (BatchNorm.blend m x g) := gives_any fun _ => gives_any fun _ => intact_binop _ _ _

theorem intact_bnForward (tr : Bool) {x : Tensor T} (hx : Intact x) : MGives IntactBN Intact (BatchNorm.forward tr x) := by
  unfold BatchNorm.forward
  refine mgives_ite (mgives_lift (gives_error _)) (mgives_ite ?_ ?_)
  · exact mgives_bind mgives_get fun l hl =>
      mgives_bind (mgives_lift (intact_meanAxes hx _)) fun bm hbm => mgives_any (mgives_modify fun l h => { h with batchMean := intactOpt_some hbm }) fun _ =>
      mgives_bind (mgives_lift (intact_varianceAxes _ hbm _)) fun bv hbv => mgives_any (mgives_modify fun l h => { h with batchVariance := intactOpt_some hbv }) fun _ =>
      mgives_any (mgives_lift gives_true) fun _ => mgives_any (mgives_lift gives_true) fun _ => mgives_any (mgives_lift gives_true) fun _ =>
      mgives_any (mgives_lift gives_true) fun _ => mgives_bind (mgives_lift (intact_normalise _ _ _ _)) fun ni hni =>
      mgives_any (mgives_modify fun l h => { h with normalizedInput := intactOpt_some hni }) fun _ =>
      mgives_bind (mgives_lift (intact_scaleShift _ _ _)) fun o ho => mgives_bind (mgives_lift (intact_blend _ _ _)) fun nm hnm =>
      mgives_any (mgives_modify fun l h => { h with runningMean := hnm }) fun _ => mgives_bind (mgives_lift (intact_blend _ _ _)) fun nv hnv =>
      mgives_any (mgives_modify fun l h => { h with runningVariance := hnv }) fun _ => mgives_pure ho
  · exact mgives_bind mgives_get fun l hl => mgives_any (mgives_lift gives_true) fun _ => mgives_any (mgives_lift gives_true) fun _ =>
      mgives_any (mgives_lift gives_true) fun _ => mgives_any (mgives_lift gives_true) fun _ => mgives_any (mgives_lift gives_true) fun _ =>
      mgives_lift (intact_scaleShift _ _ _)

theorem intact_gradsWith (rfb : Tensor T → Shape → Res (Tensor T)) (l : BatchNorm T) (bv ni g : Tensor T) :
    Gives (fun r => Intact r.1 ∧ Intact r.2.1 ∧ Intact r.2.2) (l.gradsWith rfb bv ni g) := by
  unfold BatchNorm.gradsWith
  refine gives_any fun _ => gives_any fun _ => gives_any fun _ => gives_bind (intact_sumAxes _ _) fun dg hdg =>
    gives_bind (intact_sumAxes _ _) fun db hdb => ?_
  refine gives_any fun _ => gives_any fun _ => gives_any fun _ => gives_any fun _ => gives_any fun _ => gives_any fun _ => gives_any fun _ =>
    gives_any fun _ => gives_any fun _ => gives_any fun _ => gives_any fun _ => gives_any fun _ => gives_any fun _ => gives_any fun _ =>
    gives_any fun _ => gives_any fun _ => gives_any fun _ => gives_any fun _ => gives_any fun _ => gives_any fun _ => gives_any fun _ =>
    gives_any fun _ => gives_any fun _ => gives_bind (intact_binop _ _ _) fun d hd => gives_pure ⟨hd, hdg, hdb⟩

theorem intact_bnBackward (g : Tensor T) : MGives IntactBN Intact (BatchNorm.backward g) := by
  unfold BatchNorm.backward BatchNorm.backwardWith
  refine mgives_bind mgives_get fun l hl => ?_
  split
  · exact mgives_bind (mgives_lift (intact_gradsWith _ _ _ _ _)) fun r hr =>
      mgives_any (mgives_modify fun l h => { h with gammaGrad := intactOpt_some hr.2.1, betaGrad := intactOpt_some hr.2.2 }) fun _ => mgives_pure hr.1
  · exact mgives_lift (gives_error _)

end bn

section conv
variable [Zero T] [Add T] [Mul T] [MathFn T]

theorem intact_correlate (l : Conv T) (x : Tensor T) : Gives Intact (l.correlate x) := by
  unfold Conv.correlate
  exact gives_any fun _ => gives_any fun _ => gives_any fun _ => gives_bind (good_make _) fun s hs => gives_forI (intact_zeros hs) fun _ o ho =>
    gives_forI ho fun _ o ho => gives_forI ho fun _ o ho => gives_forI ho fun _ o ho => gives_any fun _ => gives_any fun _ => intact_setAt ho _ _

theorem intact_convForward {x : Tensor T} (hx : Intact x) : MGives IntactConv Intact (Conv.forward x) := by
  unfold Conv.forward
  refine mgives_bind mgives_get fun l hl => mgives_ite (mgives_lift (gives_error _)) (mgives_any (mgives_lift gives_true) fun c =>
    mgives_ite (mgives_lift (gives_error _)) ?_)
  exact mgives_any (mgives_modify fun l h => { h with input := intactOpt_some hx }) fun _ => mgives_lift (intact_correlate _ _)

theorem intact_convBackward (g : Tensor T) : MGives IntactConv Intact (Conv.backward g) := by
  unfold Conv.backward
  refine mgives_bind mgives_get fun l hl => ?_
  split
  · exact mgives_lift (gives_error _)
  · next x hx =>
    refine mgives_any (mgives_modify fun l h => { h with weightGradients := intactOpt_some (intact_zeros h.weights.1), biasGradients := intactOpt_some (intact_zeros h.biases.1) }) fun _ =>
      mgives_bind (mgives_lift (P := Intact) ?_) fun bg hbg => mgives_any (mgives_modify fun l h => { h with biasGradients := intactOpt_some hbg }) fun _ =>
      mgives_bind (mgives_lift (P := Intact) ?_) fun wg hwg => mgives_any (mgives_modify fun l h => { h with weightGradients := intactOpt_some hwg }) fun _ => mgives_lift ?_
    · exact gives_any fun _ => gives_forI (intact_zeros hl.biases.1) fun _ o ho => gives_any fun _ => gives_forI ho fun _ o ho =>
        gives_any fun _ => gives_any fun _ => intact_set ho _ _
    · exact gives_forI (intact_zeros hl.weights.1) fun _ o ho => gives_forI ho fun _ o ho => gives_any fun _ => gives_any fun _ => intact_setAt ho _ _
    · exact gives_any fun _ => gives_forI (intact_full (hl.input x hx).1 _) fun _ o ho => gives_any fun _ => gives_forI ho fun _ o ho =>
        gives_forI ho fun _ o ho => gives_forI ho fun _ o ho => gives_any fun _ => gives_any fun _ => intact_modifyAt ho _ _

omit [Add T] [Mul T] [MathFn T] in
theorem intact_im2col (x : Tensor T) (kh kw s p d : Int) : Gives Intact (Conv.im2col x kh kw s p d) := by
  unfold Conv.im2col
  exact gives_any fun _ => gives_any fun _ => gives_any fun _ => gives_any fun _ => gives_any fun _ => gives_any fun _ =>
    gives_bind (good_make _) fun s hs => gives_any fun _ => gives_any fun _ => gives_any fun _ => gives_any fun _ =>
    gives_forI (intact_zeros hs) fun _ o ho => gives_forI ho fun _ o ho => gives_forI ho fun _ o ho => gives_forI ho fun _ o ho =>
    gives_forI ho fun _ o ho => gives_forI ho fun _ o ho => gives_ite (gives_any fun _ => intact_setAt ho _ _) (intact_setAt ho _ _)

omit [Mul T] [MathFn T] in
theorem intact_col2im (x : Tensor T) {sh : Shape} (hs : GoodShape sh) (kh kw s p d : Int) : Gives Intact (Conv.col2im x sh kh kw s p d) := by
  unfold Conv.col2im
  exact gives_any fun _ => gives_any fun _ => gives_any fun _ => gives_any fun _ => gives_any fun _ => gives_any fun _ =>
    gives_bind (intact_fill (intact_zeros hs) _) fun _ ho => gives_any fun _ => gives_any fun _ => gives_any fun _ => gives_any fun _ =>
    gives_forI ho fun _ o ho => gives_forI ho fun _ o ho => gives_forI ho fun _ o ho => gives_forI ho fun _ o ho =>
    gives_forI ho fun _ o ho => gives_forI ho fun _ o ho => gives_ite (gives_any fun _ => gives_any fun _ => intact_set ho _ _) (gives_ok ho)

end conv
end

/-! ### Optimizers -/

section
variable {K T ρ : Type} [DecidableEq K]

theorem intact_lookup [Zero T] {m : TMap K T} (h : ∀ k, IntactOpt (m k)) (k : K) {s : Shape} (hs : GoodShape s) : Intact (lookupOrZero m k s) := by
  unfold lookupOrZero
  split
  · next t ht => exact h k t ht
  · exact intact_full hs _

theorem intact_assign {m : TMap K T} (h : ∀ k, IntactOpt (m k)) (k : K) {t : Tensor T} (ht : Intact t) : ∀ j, IntactOpt (assign m k (some t) j) := by
  intro j
  unfold assign
  split
  · exact intactOpt_some ht
  · exact h j

theorem intact_assign_mem {m : K → Tensor T} (h : ∀ k, Intact (m k)) (k : K) {t : Tensor T} (ht : Intact t) : ∀ j, Intact (assign m k t j) := by
  intro j
  unfold assign
  split
  · exact ht
  · exact h j

variable [Zero T] [One T] [Add T] [Sub T] [Mul T] [Div T] [Neg T] [NatCast T]
  [IntCast T] [LT T] [DecidableLT T] [LE T] [DecidableLE T] [DecidableEq T] [MathFn T]

omit [DecidableEq K] [Div T] [Neg T] [NatCast T] [IntCast T] [LT T] [DecidableLT T] [LE T] [DecidableLE T] [MathFn T] in
theorem intact_sgdLoop (o : SGDOptions T) {w b : Tensor T} (hw : Intact w) (hb : Intact b) (g : Tensor T) (lr : T) :
    Gives (fun r => Intact r.1 ∧ Intact r.2) (SGD.loop o w b g lr) := by
  unfold SGD.loop
  refine gives_forN (I := fun r : Tensor T × Tensor T => Intact r.1 ∧ Intact r.2) ⟨hw, hb⟩ fun j st hst => gives_any fun _ => gives_any fun _ => ?_
  refine gives_ite ?_ ?_
  · exact gives_any fun _ => gives_bind (intact_set hst.2 _ _) fun b hb => gives_bind (intact_set hst.1 _ _) fun w hw => gives_pure ⟨hw, hb⟩
  · exact gives_bind (intact_set hst.1 _ _) fun w hw => gives_pure ⟨hw, hst.2⟩

/-- The four tensors of an RMSProp update. -/
def IntactRMS (s : RMSState T) : Prop := Intact s.weight ∧ Intact s.sq ∧ Intact s.mean ∧ Intact s.vel

theorem intact_rmsLoop (o : RMSPropOptions T) {s : RMSState T} (hs : IntactRMS s) (g : Tensor T) (lr : T) :
    Gives IntactRMS (RMSProp.loop o s g lr) := by
  unfold RMSProp.loop
  refine gives_forN hs fun j st hst => gives_any fun _ => gives_any fun _ => gives_any fun _ => gives_bind (intact_set hst.2.1 _ _) fun sq hsq => ?_
  refine gives_bind (Q := fun r : RMSState T × T => IntactRMS r.1) ?_ fun r hr => ?_
  · refine gives_ite (gives_any fun _ => gives_bind (intact_set hst.2.2.1 _ _) fun m hm => gives_pure ?_) (gives_pure ?_)
    · exact ⟨hst.1, hsq, hm, hst.2.2.2⟩
    · exact ⟨hst.1, hsq, hst.2.2.1, hst.2.2.2⟩
  · refine gives_ite ?_ ?_
    · exact gives_any fun _ => gives_bind (intact_set hr.2.2.2 _ _) fun v hv => gives_bind (intact_set hr.1 _ _) fun w hw =>
        gives_pure ⟨hw, hr.2.1, hr.2.2.1, hv⟩
    · exact gives_bind (intact_set hr.1 _ _) fun w hw => gives_pure ⟨hw, hr.2.1, hr.2.2.1, hr.2.2.2⟩

theorem intact_adamLoop (o : AdamOptions T) (lr : T) (n : Nat) {s : Tensor T × Tensor T × Tensor T}
    (hs : Intact s.1 ∧ Intact s.2.1 ∧ Intact s.2.2) (g : Tensor T) :
    Gives (fun s => Intact s.1 ∧ Intact s.2.1 ∧ Intact s.2.2) (Adam.loop o lr n s g) := by
  unfold Adam.loop
  exact gives_forN (I := fun s : Tensor T × Tensor T × Tensor T => Intact s.1 ∧ Intact s.2.1 ∧ Intact s.2.2) hs fun j st hst =>
    gives_any fun _ => gives_any fun _ => gives_any fun _ => gives_any fun _ => gives_bind (intact_set hst.2.1 _ _) fun m hm =>
    gives_bind (intact_set hst.2.2 _ _) fun v hv => gives_bind (intact_set hst.1 _ _) fun w hw => gives_pure ⟨hw, hm, hv⟩

/-- The weights in memory and the buffers of the optimizer. -/
def IntactWorld (w : World K T) : Prop := (∀ k, Intact (w.mem k)) ∧ IntactOptimizer w.opt

theorem intact_updateTensors (lr : T) (ps : List (K × Tensor T)) {w : World K T} (hw : IntactWorld w) : Gives IntactWorld (w.updateTensors lr ps) := by
  unfold World.updateTensors
  refine gives_foldlM ?_ ps hw
  rintro ⟨mem, opt⟩ ⟨k, g⟩ ⟨h1, h2⟩
  cases opt with
  | sgd o =>
    refine gives_bind (Q := fun r : SGD K T × (K → Tensor T) => (∀ k, IntactOpt (r.1.momentumBuffers k)) ∧ ∀ k, Intact (r.2 k)) ?_ fun r hr => gives_pure ⟨hr.2, hr.1⟩
    exact gives_bind (intact_sgdLoop _ (h1 k) (intact_lookup h2 k (h1 k).1) _ _) fun r hr =>
      gives_pure ⟨intact_assign h2 k hr.2, intact_assign_mem h1 k hr.1⟩
  | rmsprop o =>
    refine gives_bind (Q := fun r : RMSProp K T × (K → Tensor T) => IntactOptimizer (.rmsprop r.1) ∧ ∀ k, Intact (r.2 k)) ?_ fun r hr => gives_pure ⟨hr.2, hr.1⟩
    refine gives_bind (intact_rmsLoop (s := ⟨mem k, lookupOrZero o.squaredGrads k (mem k).shape, lookupOrZero o.meanGrads k (mem k).shape,
      lookupOrZero o.velocityBuffers k (mem k).shape⟩) o.opts ⟨h1 k, intact_lookup h2.1 k (h1 k).1, intact_lookup h2.2.1 k (h1 k).1,
      intact_lookup h2.2.2 k (h1 k).1⟩ g _) fun r hr => gives_pure ⟨⟨intact_assign h2.1 k hr.2.1, ?_, ?_⟩, intact_assign_mem h1 k hr.1⟩
    · dsimp only
      split
      · exact intact_assign h2.2.1 k hr.2.2.1
      · exact h2.2.1
    · dsimp only
      split
      · exact intact_assign h2.2.2 k hr.2.2.2
      · exact h2.2.2
  | adam o =>
    refine gives_bind (Q := fun r : Adam K T × (K → Tensor T) => IntactOptimizer (.adam r.1) ∧ ∀ k, Intact (r.2 k)) ?_ fun r hr => gives_pure ⟨hr.2, hr.1⟩
    exact gives_bind (intact_adamLoop _ _ _ ⟨h1 k, intact_lookup h2.1 k (h1 k).1, intact_lookup h2.2 k (h1 k).1⟩ g) fun r hr =>
      gives_pure ⟨⟨intact_assign h2.1 k hr.2.1, intact_assign h2.2 k hr.2.2⟩, intact_assign_mem h1 k hr.1⟩

theorem intact_optimizeM (c : Call K T) : MGives IntactWorld (fun _ => True) (World.optimizeM c : Mut (World K T) Unit) := by
  intro w hw
  refine ⟨?_, gives_true⟩
  unfold World.optimizeM
  split
  · exact hw
  · have hb : IntactWorld (w.begin c.lr) := by
      obtain ⟨mem, opt⟩ := w
      cases opt
      · exact hw
      · exact hw
      · exact hw
    split
    · next w' h => exact intact_updateTensors _ _ hb w' h
    · exact hw

theorem intact_optimizePair (k0 k1 : K) {opt : Optimizer K T} (ho : IntactOptimizer opt) {p0 p1 : Tensor T} (h0 : Intact p0) (h1 : Intact p1)
    (g0 g1 : Tensor T) : Intact (Layer.optimizePair k0 k1 opt p0 p1 g0 g1).2.1 ∧ Intact (Layer.optimizePair k0 k1 opt p0 p1 g0 g1).2.2.1 ∧
      IntactOptimizer (Layer.optimizePair k0 k1 opt p0 p1 g0 g1).2.2.2 := by
  have := (intact_optimizeM (T := T) ⟨[k0, k1], [g0, g1], -1⟩ ⟨fun k => if k = k0 then p0 else p1, opt⟩ ⟨fun k => by
    dsimp only
    split
    · exact h0
    · exact h1, ho⟩).1
  exact ⟨this.1 k0, this.1 k1, this.2⟩

theorem intact_layerUpdate (k0 k1 : K) : MGives (fun s : Layer T × Optimizer K T => IntactLayer s.1 ∧ IntactOptimizer s.2) (fun _ => True)
    (Layer.updateWeights k0 k1) := by
  rintro ⟨⟨kind, tr⟩, opt⟩ ⟨h1, h2⟩
  refine ⟨?_, gives_true⟩
  unfold Layer.updateWeights
  cases kind with
  | fc l =>
    dsimp only
    split
    · obtain ⟨a, b, c⟩ := intact_optimizePair k0 k1 h2 h1.weights h1.biases _ _
      exact ⟨{ h1 with weights := a, biases := b }, c⟩
    · exact ⟨h1, h2⟩
  | conv l =>
    dsimp only
    split
    · obtain ⟨a, b, c⟩ := intact_optimizePair k0 k1 h2 h1.weights h1.biases _ _
      exact ⟨{ h1 with weights := a, biases := b }, c⟩
    · exact ⟨h1, h2⟩
  | batchNorm l =>
    dsimp only
    split
    · obtain ⟨a, b, c⟩ := intact_optimizePair k0 k1 h2 h1.gamma h1.beta _ _
      exact ⟨{ h1 with gamma := a, beta := b }, c⟩
    · exact ⟨h1, h2⟩
  | _ => exact ⟨h1, h2⟩

theorem intact_layerForward (E : Engine ρ T) {x : Tensor T} (hx : Intact x) : MGives (fun s : Layer T × ρ => IntactLayer s.1) Intact (Layer.forward E x) := by
  rintro ⟨⟨kind, tr⟩, r⟩ h
  unfold Layer.forward
  cases kind with
  | fc l => exact intact_fcForward hx l h
  | conv l => exact intact_convForward hx l h
  | flatten l => exact intact_flattenForward hx l h
  | maxPool l => exact intact_poolForward hx l h
  | batchNorm l => exact intact_bnForward tr hx l h
  | dropout l => exact intact_dropoutForward E tr hx (l, r) h
  | activation l => exact intact_actLayerForward hx l h

theorem intact_layerBackward {g : Tensor T} (hg : Intact g) : MGives IntactLayer Intact (Layer.backward g) := by
  rintro ⟨kind, tr⟩ h
  unfold Layer.backward
  cases kind with
  | fc l => exact intact_fcBackward hg l h
  | conv l => exact intact_convBackward g l h
  | flatten l => exact intact_flattenBackward hg l h
  | maxPool l => exact intact_poolBackward g l h
  | batchNorm l => exact intact_bnBackward g l h
  | dropout l => exact intact_dropoutBackward tr hg l h
  | activation l => exact intact_actLayerBackward g l h

/-! ### Models -/

theorem intact_forwardLayers (E : Engine ρ T) : ∀ (ls : List (Layer T)) {x : Tensor T} (r : ρ), (∀ l ∈ ls, IntactLayer l) → Intact x →
    (∀ l ∈ (forwardLayers E ls x r).2.1, IntactLayer l) ∧ Gives Intact (forwardLayers E ls x r).1 := by
  intro ls
  induction ls with
  | nil => intro x r h hx; exact ⟨h, gives_ok hx⟩
  | cons l ls ih =>
    intro x r h hx
    obtain ⟨h1, h2⟩ := intact_layerForward E hx (l, r) (h l (by simp))
    have hls : ∀ l ∈ ls, IntactLayer l := fun a ha => h a (by simp [ha])
    unfold forwardLayers
    rcases hf : Layer.forward E x (l, r) with ⟨e | y, l', r'⟩
    · rw [hf] at h1
      exact ⟨fun a ha => (List.mem_cons.1 ha).elim (fun e => e ▸ h1) (hls a), gives_error e⟩
    · rw [hf] at h1 h2
      obtain ⟨g1, g2⟩ := ih r' hls (h2 y rfl)
      exact ⟨fun a ha => (List.mem_cons.1 ha).elim (fun e => e ▸ h1) (g1 a), g2⟩

theorem intact_predict (E : Engine ρ T) {x : Tensor T} (hx : Intact x) : MGives IntactNet Intact (Net.predict E x : Mut (Net ρ T) (Tensor T)) := by
  intro net h
  obtain ⟨g1, g2⟩ := intact_forwardLayers E net.layers net.rng h.layers hx
  exact ⟨⟨g1, h.optimizer⟩, g2⟩

theorem intact_predictAll (E : Engine ρ T) : ∀ (xs : List (Tensor T)), (∀ x ∈ xs, Intact x) →
    MGives IntactNet (fun ys => ∀ y ∈ ys, Intact y) (Net.predictAll E xs : Mut (Net ρ T) (List (Tensor T))) := by
  intro xs
  induction xs with
  | nil => intro _; exact mgives_pure (by simp)
  | cons x xs ih =>
    intro h
    unfold Net.predictAll
    exact mgives_bind (intact_predict E (h x (by simp))) fun y hy => mgives_bind (ih fun a ha => h a (by simp [ha])) fun ys hys =>
      mgives_pure fun a ha => (List.mem_cons.1 ha).elim (fun e => e ▸ hy) (hys a)

theorem intact_backwardLayers : ∀ (ls : List (Layer T)) {g : Tensor T}, (∀ l ∈ ls, IntactLayer l) → Intact g →
    (∀ l ∈ (backwardLayers ls g).2, IntactLayer l) ∧ Gives Intact (backwardLayers ls g).1 := by
  intro ls
  induction ls with
  | nil => intro g h hg; exact ⟨h, gives_ok hg⟩
  | cons l ls ih =>
    intro g h hg
    have hls : ∀ l ∈ ls, IntactLayer l := fun a ha => h a (by simp [ha])
    obtain ⟨g1, g2⟩ := ih hls hg
    unfold backwardLayers
    rcases hf : backwardLayers ls g with ⟨e | y, ls'⟩
    · rw [hf] at g1
      exact ⟨fun a ha => (List.mem_cons.1 ha).elim (fun e => e ▸ h l (by simp)) (g1 a), gives_error e⟩
    · rw [hf] at g1 g2
      obtain ⟨h1, h2⟩ := intact_layerBackward (g2 y rfl) l (h l (by simp))
      exact ⟨fun a ha => (List.mem_cons.1 ha).elim (fun e => e ▸ h1) (g1 a), h2⟩

theorem intact_backward {g : Tensor T} (hg : Intact g) : MGives IntactNet Intact (Net.backward g : Mut (Net ρ T) (Tensor T)) := by
  intro net h
  obtain ⟨g1, g2⟩ := intact_backwardLayers net.layers h.layers hg
  exact ⟨⟨g1, h.optimizer⟩, g2⟩

theorem intact_updateLayers : ∀ (ls : List (Layer T)) (i : Nat) {opt : Optimizer (Nat × Bool) T}, (∀ l ∈ ls, IntactLayer l) → IntactOptimizer opt →
    (∀ l ∈ (updateLayers i ls opt).2.1, IntactLayer l) ∧ IntactOptimizer (updateLayers i ls opt).2.2 := by
  intro ls
  induction ls with
  | nil => intro i opt h ho; exact ⟨h, ho⟩
  | cons l ls ih =>
    intro i opt h ho
    have hls : ∀ l ∈ ls, IntactLayer l := fun a ha => h a (by simp [ha])
    obtain ⟨⟨h1, h2⟩, -⟩ := intact_layerUpdate (i, false) (i, true) (l, opt) ⟨h l (by simp), ho⟩
    unfold updateLayers
    rcases hf : Layer.updateWeights (i, false) (i, true) (l, opt) with ⟨e | ⟨⟨⟩⟩, l', opt'⟩
    · rw [hf] at h1 h2
      exact ⟨fun a ha => (List.mem_cons.1 ha).elim (fun e => e ▸ h1) (hls a), h2⟩
    · rw [hf] at h1 h2
      obtain ⟨g1, g2⟩ := ih (i + 1) hls h2
      exact ⟨fun a ha => (List.mem_cons.1 ha).elim (fun e => e ▸ h1) (g1 a), g2⟩

theorem intact_updateWeights : MGives IntactNet (fun _ => True) (Net.updateWeights : Mut (Net ρ T) Unit) := by
  intro net h
  refine ⟨?_, gives_true⟩
  unfold Net.updateWeights
  split
  · exact h
  · exact h
  · next l ls opt hl ho =>
    obtain ⟨g1, g2⟩ := intact_updateLayers (l :: ls) 0 (fun a ha => h.layers a (hl ▸ ha)) (h.optimizer opt ho)
    exact ⟨g1, fun o e => by cases e; exact g2⟩

/-- The model and the losses of a running training. -/
structure IntactSession (s : Session ρ T) : Prop where
  net : IntactNet s.net
  total : Intact s.total
  printed : ∀ p ∈ s.printed, Intact p

theorem intact_onNet {α : Type} {P : α → Prop} {m : Mut (Net ρ T) α} (h : MGives IntactNet P m) : MGives IntactSession P (Session.onNet m) := by
  intro s hs
  obtain ⟨h1, h2⟩ := h s.net hs.net
  exact ⟨{ hs with net := h1 }, h2⟩

theorem intact_trainSample (E : Engine ρ T) {x : Tensor T} (hx : Intact x) (ys : List (Tensor T)) (i : Nat) :
    MGives (IntactSession : Session ρ T → Prop) (fun _ => True) (trainSample E x ys i) := by
  unfold trainSample
  exact mgives_bind (intact_onNet (intact_predict E hx)) fun p hp => mgives_bind mgives_get fun s hs => mgives_any (mgives_lift gives_true) fun L =>
    mgives_any (mgives_lift gives_true) fun t => mgives_any (mgives_lift gives_true) fun v => mgives_bind (mgives_lift (intact_addAssign _ _ hs.total)) fun tot htot =>
    mgives_any (mgives_modify fun s h => { h with total := htot }) fun _ => mgives_bind (mgives_lift (intact_gradient L hp t)) fun g hg =>
    mgives_any ((intact_onNet (intact_backward hg)).mono fun _ _ => trivial) fun _ => intact_onNet intact_updateWeights

theorem intact_trainSamples (E : Engine ρ T) (ys : List (Tensor T)) : ∀ (xs : List (Tensor T)) (i : Nat), (∀ x ∈ xs, Intact x) →
    MGives (IntactSession : Session ρ T → Prop) (fun _ => True) (trainSamples E ys i xs) := by
  intro xs
  induction xs with
  | nil => intro i _; exact mgives_pure trivial
  | cons x xs ih =>
    intro i h
    unfold trainSamples
    exact mgives_any (intact_trainSample E (h x (by simp)) ys i) fun _ => ih (i + 1) fun a ha => h a (by simp [ha])

theorem intact_train (E : Engine ρ T) {xs : List (Tensor T)} (hx : ∀ x ∈ xs, Intact x) (ys : List (Tensor T)) (epochs : Int) :
    MGives (IntactSession : Session ρ T → Prop) (fun _ => True) (Net.train E xs ys epochs) := by
  unfold Net.train
  refine mgives_forN (fun _ => ?_) _
  unfold trainEpoch
  exact mgives_bind (mgives_lift (good_make _)) fun s hs => mgives_any (mgives_modify fun _ h => { h with total := intact_full hs _ }) fun _ =>
    mgives_any (intact_trainSamples E ys xs 0 hx) fun _ => mgives_bind mgives_get fun s hs =>
    mgives_bind (mgives_lift (intact_divScalar hs.total _)) fun r hr => mgives_modify fun s h => ⟨h.net, h.total, fun p hp =>
      (List.mem_append.1 hp).elim (h.printed p) fun h' => List.mem_singleton.1 h' ▸ hr⟩

end

section
variable {ρ T : Type} [Zero T] [One T] [Add T] [Sub T] [Mul T] [Div T] [Neg T] [NatCast T] [IntCast T]
  [LT T] [DecidableLT T] [LE T] [DecidableLE T] [DecidableEq T] [MathFn T]

/-! ### Histories -/

theorem intact_handed {α : Type} {f : α → List (Tensor T)} {r : Res α} (h : Gives (fun a => ∀ t ∈ f a, Intact t) r) :
    ∀ t ∈ handed f r, Intact t := by
  intro t ht
  cases r with
  | error e => simp [handed] at ht
  | ok a => exact h a rfl t ht

theorem intact_visit (E : Engine ρ T) {net : Net ρ T} (h : IntactNet net) {v : Visit T} (hv : v.Proper) :
    IntactNet (v.apply E net).1 ∧ ∀ t ∈ (v.apply E net).2, Intact t := by
  cases v with
  | train xs ys n =>
    obtain ⟨⟨a, -, b⟩, -⟩ := intact_train E (xs := xs) hv ys n ⟨net, ofFn [1] fun _ => 0, []⟩
      ⟨h, ⟨make_one, by simp⟩, by simp⟩
    exact ⟨a, b⟩
  | predict x =>
    obtain ⟨a, b⟩ := intact_predict E (x := x) hv net h
    exact ⟨a, intact_handed (b.mono fun y hy t ht => List.mem_singleton.1 ht ▸ hy)⟩
  | predictAll xs =>
    obtain ⟨a, b⟩ := intact_predictAll E xs hv net h
    exact ⟨a, intact_handed b⟩
  | backward g => exact ⟨(intact_backward (g := g) hv net h).1, by simp [Visit.apply]⟩
  | updateWeights => exact ⟨(intact_updateWeights net h).1, by simp [Visit.apply]⟩
  | mode b =>
    refine ⟨⟨?_, h.optimizer⟩, by simp [Visit.apply]⟩
    intro l hl
    obtain ⟨l', h', rfl⟩ := List.mem_map.1 hl
    exact h.layers l' h'
  | compile L opt => exact ⟨⟨h.layers, fun o e => by cases e; exact hv⟩, by simp [Visit.apply]⟩
  | addLayer l =>
    refine ⟨⟨fun a ha => ?_, h.optimizer⟩, by simp [Visit.apply]⟩
    rcases List.mem_append.1 ha with h' | h'
    · exact h.layers a h'
    · exact List.mem_singleton.1 h' ▸ hv
  | setLayer i l =>
    refine ⟨⟨fun a ha => ?_, h.optimizer⟩, by simp [Visit.apply]⟩
    rcases List.mem_or_eq_of_mem_set ha with h' | h'
    · exact h.layers a h'
    · exact h' ▸ hv

end
end SmartDNN
