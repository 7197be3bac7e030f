import Verif.Spec.Oblivious

/-!
# Two runs side by side (proofs for C104)
-/

namespace SmartDNN
open Net Spec

section combinators
variable {α α' β β' σ σ' : Type} {P : α → α' → Prop} {Q : β → β' → Prop}

theorem agree_bind {m : Res β} {m' : Res β'} {f : β → Res α} {f' : β' → Res α'} (hm : SameOutcome Q m m')
    (hf : ∀ b b', Q b b' → SameOutcome P (f b) (f' b')) : SameOutcome P (m >>= f) (m' >>= f') := by
  cases m <;> cases m'
  · exact hm
  · exact hm.elim
  · exact hm.elim
  · exact hf _ _ hm

/-- A step both runs do alike. -/
theorem agree_any {m : Res β} {f : β → Res α} {f' : β → Res α'} (hf : ∀ b, m = .ok b → SameOutcome P (f b) (f' b)) :
    SameOutcome P (m >>= f) (m >>= f') := by
  cases m
  · rfl
  · exact hf _ rfl

theorem agree_pure {a : α} {a' : α'} (h : P a a') : SameOutcome P (pure a) (pure a') := h
theorem agree_ok {a : α} {a' : α'} (h : P a a') : SameOutcome P (.ok a) (.ok a') := h
theorem agree_error (e : Err) : SameOutcome P (.error e) (.error e) := rfl
theorem agree_throw (e : Err) : SameOutcome P (throw e) (throw e) := rfl

theorem agree_ite {c : Prop} [i : Decidable c] [i' : Decidable c] {a b : Res α} {a' b' : Res α'} (ha : c → SameOutcome P a a') (hb : ¬ c → SameOutcome P b b') :
    SameOutcome P (@ite _ c i a b) (@ite _ c i' a' b') := by
  by_cases hc : c
  · rw [if_pos hc, if_pos hc]; exact ha hc
  · rw [if_neg hc, if_neg hc]; exact hb hc

theorem Spec.SameOutcome.mono {P' : α → α' → Prop} {r : Res α} {r' : Res α'} (h : SameOutcome P r r') (hp : ∀ a a', P a a' → P' a a') : SameOutcome P' r r' := by
  cases r <;> cases r'
  · exact h
  · exact h.elim
  · exact h.elim
  · exact hp _ _ h

theorem agree_forN {I : σ → σ' → Prop} {n : Nat} {s : σ} {s' : σ'} {f : Nat → σ → Res σ} {f' : Nat → σ' → Res σ'} (h0 : I s s')
    (hf : ∀ i s s', I s s' → SameOutcome I (f i s) (f' i s')) : SameOutcome I (forN n s f) (forN n s' f') := by
  induction n with
  | zero => exact h0
  | succ n ih =>
    rw [forN_succ, forN_succ]
    exact agree_bind ih fun a b h => hf n a b h

theorem agree_forI {I : σ → σ' → Prop} {n : Int} {s : σ} {s' : σ'} {f : Int → σ → Res σ} {f' : Int → σ' → Res σ'} (h0 : I s s')
    (hf : ∀ i s s', I s s' → SameOutcome I (f i s) (f' i s')) : SameOutcome I (forI n s f) (forI n s' f') := agree_forN h0 fun i s s' h => hf i s s' h

theorem agree_foldlM {γ : Type} {I : σ → σ' → Prop} {f : σ → γ → Res σ} {f' : σ' → γ → Res σ'} (hf : ∀ s s' b, I s s' → SameOutcome I (f s b) (f' s' b)) :
    ∀ (l : List γ) {s : σ} {s' : σ'}, I s s' → SameOutcome I (l.foldlM f s) (l.foldlM f' s') := by
  intro l
  induction l with
  | nil => intro s s' h; exact h
  | cons b l ih =>
    intro s s' h
    rw [List.foldlM_cons, List.foldlM_cons]
    exact agree_bind (hf s s' b h) fun a b h' => ih h'

theorem agree_foldlM2 {γ γ' : Type} {I : σ → σ' → Prop} {J : γ → γ' → Prop} {f : σ → γ → Res σ} {f' : σ' → γ' → Res σ'}
    (hf : ∀ s s' b b', I s s' → J b b' → SameOutcome I (f s b) (f' s' b')) {l : List γ} {l' : List γ'} (hl : List.Forall₂ J l l') :
    ∀ {s : σ} {s' : σ'}, I s s' → SameOutcome I (l.foldlM f s) (l'.foldlM f' s') := by
  induction hl with
  | nil => intro s s' h; exact h
  | cons hb _ ih =>
    intro s s' h
    rw [List.foldlM_cons, List.foldlM_cons]
    exact agree_bind (hf s s' _ _ h hb) fun a b h' => ih h'

theorem agree_doWhile {I : σ → σ' → Prop} {body : σ → Res (Bool × σ)} {body' : σ' → Res (Bool × σ')}
    (hf : ∀ s s', I s s' → SameOutcome (fun r r' => r.1 = r'.1 ∧ I r.2 r'.2) (body s) (body' s')) :
    ∀ (n : Nat) {s : σ} {s' : σ'}, I s s' → SameOutcome I (doWhileFuel body n s) (doWhileFuel body' n s') := by
  intro n
  induction n with
  | zero => intro s s' _; rfl
  | succ n ih =>
    intro s s' h
    unfold doWhileFuel
    refine agree_bind (hf s s' h) fun r r' hr => ?_
    rw [hr.1]
    exact agree_ite (fun _ => ih hr.2) fun _ => hr.2

theorem agree_while {I : σ → σ' → Prop} {c : σ → Bool} {c' : σ' → Bool} {body : σ → Res σ} {body' : σ' → Res σ'}
    (hc : ∀ s s', I s s' → c s = c' s') (hf : ∀ s s', I s s' → SameOutcome I (body s) (body' s')) :
    ∀ (n : Nat) {s : σ} {s' : σ'}, I s s' → SameOutcome I (whileFuel c body n s) (whileFuel c' body' n s') := by
  intro n
  induction n with
  | zero =>
    intro s s' h
    unfold whileFuel
    rw [hc s s' h]
    exact agree_ite (fun _ => rfl) fun _ => h
  | succ n ih =>
    intro s s' h
    unfold whileFuel
    rw [hc s s' h]
    exact agree_ite (fun _ => agree_bind (hf s s' h) fun a b h' => ih h') fun _ => h

/-- Two programs that keep the relation of the states they work on, also when they fail, and agree in their results. -/
def MAgree (I : σ → σ' → Prop) (P : α → α' → Prop) (m : Mut σ α) (m' : Mut σ' α') : Prop :=
  ∀ s s', I s s' → I (m s).2 (m' s').2 ∧ SameOutcome P (m s).1 (m' s').1

variable {I : σ → σ' → Prop}

theorem magree_bind {m : Mut σ β} {m' : Mut σ' β'} {f : β → Mut σ α} {f' : β' → Mut σ' α'} (hm : MAgree I Q m m')
    (hf : ∀ b b', Q b b' → MAgree I P (f b) (f' b')) : MAgree I P (m >>= f) (m' >>= f') := by
  intro s s' hs
  obtain ⟨h1, h2⟩ := hm s s' hs
  show I (Mut.bind m f s).2 (Mut.bind m' f' s').2 ∧ SameOutcome P (Mut.bind m f s).1 (Mut.bind m' f' s').1
  unfold Mut.bind
  rcases hx : m s with ⟨e | a, s1⟩ <;> rcases hx' : m' s' with ⟨e' | a', s1'⟩ <;> rw [hx, hx'] at h1 h2
  · exact ⟨h1, h2⟩
  · exact h2.elim
  · exact h2.elim
  · exact hf a a' h2 s1 s1' h1

theorem magree_pure {a : α} {a' : α'} (h : P a a') : MAgree I P (pure a : Mut σ α) (pure a' : Mut σ' α') := fun _ _ hs => ⟨hs, h⟩
theorem magree_get : MAgree I I (Mut.get : Mut σ σ) (Mut.get : Mut σ' σ') := fun _ _ hs => ⟨hs, hs⟩
theorem magree_set {s : σ} {s' : σ'} (h : I s s') : MAgree I (fun _ _ => True) (Mut.set s) (Mut.set s') := fun _ _ _ => ⟨h, trivial⟩
theorem magree_modify {f : σ → σ} {f' : σ' → σ'} (h : ∀ s s', I s s' → I (f s) (f' s')) : MAgree I (fun _ _ => True) (Mut.modify f) (Mut.modify f') :=
  fun s s' hs => ⟨h s s' hs, trivial⟩
theorem magree_lift {r : Res α} {r' : Res α'} (h : SameOutcome P r r') : MAgree I P (Mut.lift r) (Mut.lift r') := fun _ _ hs => ⟨hs, h⟩
theorem magree_ite {c : Prop} [i : Decidable c] [i' : Decidable c] {a b : Mut σ α} {a' b' : Mut σ' α'} (ha : c → MAgree I P a a')
    (hb : ¬ c → MAgree I P b b') : MAgree I P (@ite _ c i a b) (@ite _ c i' a' b') := by
  by_cases hc : c
  · rw [if_pos hc, if_pos hc]; exact ha hc
  · rw [if_neg hc, if_neg hc]; exact hb hc
/-- A step both runs do alike. -/
theorem magree_any {r : Res β} {f : β → Mut σ α} {f' : β → Mut σ' α'} (hf : ∀ b, MAgree I P (f b) (f' b)) :
    MAgree I P (Mut.lift r >>= f) (Mut.lift r >>= f') := by
  refine magree_bind (Q := Eq) (magree_lift ?_) fun b b' h => h ▸ hf b
  cases r <;> rfl
theorem magree_forN {body : Nat → Mut σ Unit} {body' : Nat → Mut σ' Unit} (h : ∀ i, MAgree I (fun _ _ => True) (body i) (body' i)) (n : Nat) :
    MAgree I (fun _ _ => True) (Mut.forN n body) (Mut.forN n body') := by
  induction n with
  | zero => exact fun s s' hs => ⟨hs, trivial⟩
  | succ n ih =>
    rw [Mut.forN_succ, Mut.forN_succ]
    exact magree_bind ih fun _ _ _ => h n
theorem MAgree.exec {m : Mut σ Unit} {m' : Mut σ' Unit} (h : MAgree I (fun _ _ => True) m m') {s : σ} {s' : σ'} (hs : I s s') :
    SameOutcome I (m.exec s) (m'.exec s') := by
  obtain ⟨h1, h2⟩ := h s s' hs
  unfold Mut.exec
  rcases hx : m s with ⟨e | a, s1⟩ <;> rcases hx' : m' s' with ⟨e' | a', s1'⟩ <;> rw [hx, hx'] at h1 h2
  · exact h2
  · exact h2.elim
  · exact h2.elim
  · exact h1

end combinators

/-! ### Tensors -/

section tensors
variable {T T' : Type} {R R1 R2 : T → T' → Prop}

theorem agree_rd {d : List T} {d' : List T'} (h : List.Forall₂ R d d') (i : Int) : SameOutcome R (rd d i) (rd d' i) := by
  unfold rd
  refine agree_ite (fun _ => ?_) fun _ => rfl
  by_cases hl : i.toNat < d.length
  · have hl' : i.toNat < d'.length := h.length_eq ▸ hl
    rw [List.getElem?_eq_getElem hl, List.getElem?_eq_getElem hl']
    exact List.Forall₂.get h hl hl'
  · have hl' : ¬ i.toNat < d'.length := h.length_eq ▸ hl
    rw [List.getElem?_eq_none (by omega), List.getElem?_eq_none (by omega)]
    rfl

theorem forall2_set {d : List T} {d' : List T'} (h : List.Forall₂ R d d') {x : T} {x' : T'} (hx : R x x') : ∀ i, List.Forall₂ R (d.set i x) (d'.set i x') := by
  induction h with
  | nil => intro i; exact .nil
  | cons h1 h2 ih =>
    intro i
    cases i with
    | zero => exact .cons hx h2
    | succ i => exact .cons h1 (ih i)

theorem agree_wr {d : List T} {d' : List T'} (h : List.Forall₂ R d d') (i : Int) {x : T} {x' : T'} (hx : R x x') :
    SameOutcome (List.Forall₂ R) (wr d i x) (wr d' i x') := by
  unfold wr
  rw [h.length_eq]
  exact agree_ite (fun _ => forall2_set h hx _) fun _ => rfl

theorem twin_get {t : Tensor T} {t' : Tensor T'} (h : Twin R t t') (i : Int) : SameOutcome R (t.get i) (t'.get i) := agree_rd h.2 i

theorem twin_set {t : Tensor T} {t' : Tensor T'} (h : Twin R t t') (i : Int) {x : T} {x' : T'} (hx : R x x') :
    SameOutcome (Twin R) (t.set i x) (t'.set i x') := agree_bind (agree_wr h.2 i hx) fun _ _ hd => ⟨h.1, hd⟩

theorem twin_at {t : Tensor T} {t' : Tensor T'} (h : Twin R t t') (i : List Int) : SameOutcome R (t.at_ i) (t'.at_ i) := by
  unfold Tensor.at_
  rw [h.1]
  exact agree_any fun k _ => agree_rd h.2 k

theorem twin_setAt {t : Tensor T} {t' : Tensor T'} (h : Twin R t t') (i : List Int) {x : T} {x' : T'} (hx : R x x') :
    SameOutcome (Twin R) (t.setAt i x) (t'.setAt i x') := by
  unfold Tensor.setAt
  rw [h.1]
  exact agree_any fun k _ => agree_bind (agree_wr h.2 k hx) fun _ _ hd => ⟨rfl, hd⟩

theorem twin_modifyAt {t : Tensor T} {t' : Tensor T'} (h : Twin R t t') (i : List Int) {f : T → T} {f' : T' → T'} (hf : ∀ x x', R x x' → R (f x) (f' x')) :
    SameOutcome (Twin R) (t.modifyAt i f) (t'.modifyAt i f') := by
  unfold Tensor.modifyAt
  rw [h.1]
  exact agree_any fun k _ => agree_bind (agree_rd h.2 k) fun x x' hx => agree_bind (agree_wr h.2 k (hf x x' hx)) fun _ _ hd => ⟨rfl, hd⟩

theorem forall2_replicate {x : T} {x' : T'} (h : R x x') : ∀ n, List.Forall₂ R (List.replicate n x) (List.replicate n x')
  | 0 => .nil
  | n + 1 => .cons h (forall2_replicate h n)

theorem twin_full (s : Shape) {x : T} {x' : T'} (h : R x x') : Twin R (Tensor.full s x) (Tensor.full s x') := ⟨rfl, forall2_replicate h _⟩
theorem twin_zeros [Zero T] [Zero T'] (s : Shape) (h : R 0 0) : Twin R (Tensor.zeros s) (Tensor.zeros s) := ⟨rfl, forall2_replicate h _⟩

theorem twin_fromList [Zero T] [Zero T'] (s : Shape) (h0 : R 0 0) {l : List T} {l' : List T'} (h : List.Forall₂ R l l') :
    SameOutcome (Twin R) (Tensor.fromList s l) (Tensor.fromList s l') := by
  unfold Tensor.fromList
  rw [h.length_eq]
  exact agree_ite (fun _ => ⟨rfl, List.rel_append h (forall2_replicate h0 _)⟩) fun _ => rfl

theorem agree_iter {t : Tensor T} {t' : Tensor T'} (h : Twin R t t') :
    SameOutcome (List.Forall₂ R) t.iter t'.iter := by
  unfold Tensor.iter
  rw [h.1, h.2.length_eq]
  exact agree_ite (fun _ => List.forall₂_take _ h.2) fun _ => rfl

theorem twin_reshape {t : Tensor T} {t' : Tensor T'} (h : Twin R t t') (ds : List Int) : SameOutcome (Twin R) (t.reshape ds) (t'.reshape ds) := by
  unfold Tensor.reshape
  refine MAgree.exec (I := Twin R) (fun s s' hs => ?_) h
  unfold Tensor.reshapeM
  dsimp only
  rw [hs.1]
  refine ⟨⟨rfl, hs.2⟩, ?_⟩
  cases (Shape.reshapeM ds s'.shape).1
  · rfl
  · trivial

theorem twin_reshaped {t : Tensor T} {t' : Tensor T'} (h : Twin R t t') (ds : List Int) : SameOutcome (Twin R) (t.reshaped ds) (t'.reshaped ds) := by
  unfold Tensor.reshaped
  exact agree_any fun s _ => twin_reshape h _

theorem twin_map {t : Tensor T} {t' : Tensor T'} (h : Twin R1 t t') {f : T → T} {f' : T' → T'} (hf : ∀ x x', R1 x x' → R (f x) (f' x')) :
    SameOutcome (Twin R) (t.map f) (t'.map f') := by
  unfold Tensor.map
  refine agree_bind (agree_iter h) fun xs xs' hx => ⟨h.1, ?_⟩
  rw [List.forall₂_map_left_iff, List.forall₂_map_right_iff]
  exact hx.imp hf

theorem agree_toList (v : BView) {d : List T} {d' : List T'} (h : List.Forall₂ R d d') : SameOutcome (List.Forall₂ R) (v.toList d) (v.toList d') := by
  unfold BView.toList
  refine agree_bind (Q := fun (r : ViewIter × List T) (r' : ViewIter × List T') => r.1 = r'.1 ∧ List.Forall₂ R r.2 r'.2) ?_ fun r r' hr => agree_pure hr.2
  refine agree_while (I := fun (r : ViewIter × List T) (r' : ViewIter × List T') => r.1 = r'.1 ∧ List.Forall₂ R r.2 r'.2) (fun s s' hs => by rw [hs.1]) (fun s s' hs => ?_) _ ⟨rfl, .nil⟩
  refine agree_bind (Q := R) ?_ fun x x' hx => ⟨by rw [hs.1], List.rel_append hs.2 (.cons hx .nil)⟩
  unfold BView.deref BView.read
  rw [hs.1]
  exact agree_ite (fun _ => rfl) fun _ => agree_ite (fun _ => agree_rd h _) fun _ => rfl

theorem forall2_zipWith {T3 T3' : Type} {R3 : T3 → T3' → Prop} {op : T → T → T3} {op' : T' → T' → T3'} (ho : ∀ x x' y y', R1 x x' → R2 y y' → R3 (op x y) (op' x' y')) {xs ys : List T} {xs' ys' : List T'}
    (h1 : List.Forall₂ R1 xs xs') (h2 : List.Forall₂ R2 ys ys') : List.Forall₂ R3 (List.zipWith op xs ys) (List.zipWith op' xs' ys') := by
  induction h1 generalizing ys ys' with
  | nil => exact .nil
  | cons a _ ih =>
    cases h2 with
    | nil => exact .nil
    | cons b h2 => exact .cons (ho _ _ _ _ a b) (ih h2)

theorem agree_transform2 {op : T → T → T} {op' : T' → T' → T'} (ho : ∀ x x' y y', R1 x x' → R2 y y' → R (op x y) (op' x' y')) {xs ys out : List T}
    {xs' ys' out' : List T'} (h1 : List.Forall₂ R1 xs xs') (h2 : List.Forall₂ R2 ys ys') (h3 : List.Forall₂ R out out') :
    SameOutcome (List.Forall₂ R) (Tensor.transform2 op xs ys out) (Tensor.transform2 op' xs' ys' out') := by
  unfold Tensor.transform2
  rw [h1.length_eq, h2.length_eq, h3.length_eq]
  refine agree_ite (fun _ => rfl) fun _ => agree_ite (fun _ => rfl) fun _ => ?_
  exact List.rel_append (forall2_zipWith ho h1 h2) (List.forall₂_drop _ h3)

theorem twin_binop [Zero T] [Zero T'] {op : T → T → T} {op' : T' → T' → T'} (h0 : R 0 0) (ho : ∀ x x' y y', R1 x x' → R2 y y' → R (op x y) (op' x' y'))
    {l r : Tensor T} {l' r' : Tensor T'} (hl : Twin R1 l l') (hr : Twin R2 r r') : SameOutcome (Twin R) (Tensor.binop op l r) (Tensor.binop op' l' r') := by
  unfold Tensor.binop
  rw [hl.1, hr.1]
  refine agree_any fun rs _ => agree_any fun lv _ => agree_any fun rv _ => ?_
  dsimp only
  by_cases hc : lv.shape.size ≠ rv.shape.size
  · rw [if_pos hc, if_pos hc]; rfl
  · rw [if_neg hc, if_neg hc]
    exact agree_bind (agree_toList lv hl.2) fun xs xs' hx => agree_bind (agree_toList rv hr.2) fun ys ys' hy =>
      agree_bind (agree_transform2 ho hx hy (forall2_replicate h0 _)) fun d d' hd => ⟨rfl, hd⟩

theorem twin_inPlace {op : T → T → T} {op' : T' → T' → T'} (ho : ∀ x x' y y', R x x' → R2 y y' → R (op x y) (op' x' y')) {r : Tensor T} {r' : Tensor T'}
    (hr : Twin R2 r r') : MAgree (Twin R) (fun _ _ => True) (Tensor.binopInPlaceM op (some r)) (Tensor.binopInPlaceM op' (some r')) := by
  intro l l' hl
  unfold Tensor.binopInPlaceM
  simp only [Option.getD_some]
  rw [hl.1, hr.1]
  split
  · exact ⟨hl, rfl⟩
  · next rv _ =>
    dsimp only
    have := magree_forN (I := fun (st : Tensor T × ViewIter) (st' : Tensor T' × ViewIter) => Twin R st.1 st'.1 ∧ st.2 = st'.2)
      (body := fun k => do
        let st ← Mut.get
        let x ← Mut.lift (rd st.1.data k)
        let y ← Mut.lift (rv.deref r.data st.2)
        let d ← Mut.lift (wr st.1.data k (op x y))
        Mut.set ({ st.1 with data := d }, st.2.next rv.shape)) (body' := fun k => do
        let st ← Mut.get
        let x ← Mut.lift (rd st.1.data k)
        let y ← Mut.lift (rv.deref r'.data st.2)
        let d ← Mut.lift (wr st.1.data k (op' x y))
        Mut.set ({ st.1 with data := d }, st.2.next rv.shape)) (fun k => by
          refine magree_bind magree_get fun st st' hst => magree_bind (magree_lift (agree_rd hst.1.2 k)) fun x x' hx =>
            magree_bind (Q := R2) (magree_lift ?_) fun y y' hy => magree_bind (magree_lift (agree_wr hst.1.2 k (ho _ _ _ _ hx hy))) fun d d' hd =>
            magree_set ⟨⟨hst.1.1, hd⟩, by rw [hst.2]⟩
          unfold BView.deref BView.read
          rw [hst.2]
          exact agree_ite (fun _ => rfl) fun _ => agree_ite (fun _ => agree_rd hr.2 _) fun _ => rfl) l'.shape.size
      (l, ViewIter.begin rv.shape) (l', ViewIter.begin rv.shape) ⟨hl, rfl⟩
    exact ⟨this.1.1, this.2⟩

theorem twin_addAssign [Add T] [Add T'] (ho : ∀ x x' y y', R x x' → R2 y y' → R (x + y) (x' + y')) {l r : Tensor T} {l' r' : Tensor T'}
    (hl : Twin R l l') (hr : Twin R2 r r') : SameOutcome (Twin R) (l.addAssign (some r)) (l'.addAssign (some r')) := (twin_inPlace ho hr).exec hl

end tensors

section tensors
variable {T T' : Type} {R R1 R2 : T → T' → Prop}

/-! ### Matrix products -/

section products
variable [Zero T] [Add T] [Mul T] [Zero T'] [Add T'] [Mul T']

omit [Mul T] [Mul T'] in
theorem twin_sumLoop (h0 : R 0 0) (ha : ∀ x x' y y', R x x' → R y y' → R (x + y) (x' + y')) (n : Int) {f : Int → Res T} {f' : Int → Res T'}
    (hf : ∀ i, SameOutcome R (f i) (f' i)) : SameOutcome R (Tensor.sumLoop n f) (Tensor.sumLoop n f') := by
  unfold Tensor.sumLoop
  exact agree_forI h0 fun i s s' hs => agree_bind (hf i) fun x x' hx => agree_pure (ha _ _ _ _ hs hx)

/-- Sums and products of related numbers are related. -/
structure Closed (R1 R2 R : T → T' → Prop) : Prop where
  zero : R 0 0
  add : ∀ x x' y y', R x x' → R y y' → R (x + y) (x' + y')
  mul : ∀ x x' y y', R1 x x' → R2 y y' → R (x * y) (x' * y')

variable (hR : Closed R1 R2 R) {a b : Tensor T} {a' b' : Tensor T'} (ha : Twin R1 a a') (hb : Twin R2 b b')
include hR ha hb

theorem twin_dotProduct : SameOutcome (Twin R) (a.dotProduct b) (a'.dotProduct b') := by
  unfold Tensor.dotProduct
  rw [ha.1, hb.1]
  refine agree_any fun a0 _ => agree_any fun b0 _ => ?_
  by_cases hc : a0 ≠ b0
  · rw [if_pos hc, if_pos hc]; rfl
  · rw [if_neg hc, if_neg hc]
    refine agree_bind (Q := R) (twin_sumLoop hR.zero hR.add _ fun i => agree_bind (twin_get ha i) fun x x' hx => agree_bind (twin_get hb i) fun y y' hy =>
      agree_pure (hR.mul _ _ _ _ hx hy)) fun s s' hs => agree_any fun sh _ => twin_fromList sh hR.zero (.cons hs .nil)

theorem twin_matrixVectorMul : SameOutcome (Twin R) (a.matrixVectorMul b) (a'.matrixVectorMul b') := by
  unfold Tensor.matrixVectorMul
  rw [ha.1, hb.1]
  refine agree_any fun m _ => agree_any fun n _ => agree_any fun b0 _ => ?_
  by_cases hc : n ≠ b0
  · rw [if_pos hc, if_pos hc]; rfl
  · rw [if_neg hc, if_neg hc]
    refine agree_any fun sh _ => agree_forI (twin_full sh hR.zero) fun i o o' ho => agree_bind (Q := R) (twin_sumLoop hR.zero hR.add _ fun j =>
      agree_bind (twin_get ha _) fun x x' hx => agree_bind (twin_get hb _) fun y y' hy => agree_pure (hR.mul _ _ _ _ hx hy)) fun s s' hs => twin_set ho _ hs

theorem twin_matrixMatrixMul : SameOutcome (Twin R) (a.matrixMatrixMul b) (a'.matrixMatrixMul b') := by
  unfold Tensor.matrixMatrixMul
  rw [ha.1, hb.1]
  refine agree_any fun k _ => agree_any fun b0 _ => ?_
  by_cases hc : k ≠ b0
  · rw [if_pos hc, if_pos hc]; rfl
  · rw [if_neg hc, if_neg hc]
    refine agree_any fun m _ => agree_any fun n _ => agree_any fun sh _ => agree_forI (twin_full sh hR.zero) fun i o o' ho =>
      agree_forI ho fun j o o' ho => agree_bind (Q := R) (twin_sumLoop hR.zero hR.add _ fun p =>
      agree_bind (twin_get ha _) fun x x' hx => agree_bind (twin_get hb _) fun y y' hy => agree_pure (hR.mul _ _ _ _ hx hy)) fun s s' hs => twin_set ho _ hs

theorem twin_matmul2D3D : SameOutcome (Twin R) (a.matmul2D3D b) (a'.matmul2D3D b') := by
  unfold Tensor.matmul2D3D
  rw [ha.1, hb.1]
  by_cases h0 : a'.shape.rank ≠ 2 ∨ b'.shape.rank ≠ 3
  · rw [if_pos h0, if_pos h0]; rfl
  · rw [if_neg h0, if_neg h0]
    refine agree_any fun k _ => agree_any fun b0 _ => ?_
    by_cases hc : k ≠ b0
    · rw [if_pos hc, if_pos hc]; rfl
    · rw [if_neg hc, if_neg hc]
      refine agree_any fun m _ => agree_any fun n _ => agree_any fun p _ => agree_any fun sh _ => agree_forI (twin_full sh hR.zero) fun i o o' ho =>
        agree_forI ho fun j o o' ho => agree_forI ho fun q o o' ho => agree_bind (Q := R) (twin_sumLoop hR.zero hR.add _ fun p =>
        agree_bind (twin_at ha _) fun x x' hx => agree_bind (twin_at hb _) fun y y' hy => agree_pure (hR.mul _ _ _ _ hx hy)) fun s s' hs => twin_setAt ho _ hs

theorem twin_matmul3D2D : SameOutcome (Twin R) (a.matmul3D2D b) (a'.matmul3D2D b') := by
  unfold Tensor.matmul3D2D
  rw [ha.1, hb.1]
  by_cases h0 : a'.shape.rank ≠ 3 ∨ b'.shape.rank ≠ 2
  · rw [if_pos h0, if_pos h0]; rfl
  · rw [if_neg h0, if_neg h0]
    refine agree_any fun k _ => agree_any fun b0 _ => ?_
    by_cases hc : k ≠ b0
    · rw [if_pos hc, if_pos hc]; rfl
    · rw [if_neg hc, if_neg hc]
      refine agree_any fun m _ => agree_any fun n _ => agree_any fun p _ => agree_any fun sh _ => agree_forI (twin_full sh hR.zero) fun i o o' ho =>
        agree_forI ho fun j o o' ho => agree_forI ho fun q o o' ho => agree_bind (Q := R) (twin_sumLoop hR.zero hR.add _ fun p =>
        agree_bind (twin_at ha _) fun x x' hx => agree_bind (twin_at hb _) fun y y' hy => agree_pure (hR.mul _ _ _ _ hx hy)) fun s s' hs => twin_setAt ho _ hs

theorem twin_batchedMatmul : SameOutcome (Twin R) (a.batchedMatmul b) (a'.batchedMatmul b') := by
  have e1 := twin_matmul3D2D hR ha hb
  have e2 := twin_matmul2D3D hR ha hb
  unfold Tensor.batchedMatmul
  rw [ha.1, hb.1]
  refine agree_ite (fun _ => e1) fun _ => agree_ite (fun _ => e2) fun _ => agree_ite (fun _ => rfl) fun _ => agree_ite (fun _ => rfl) fun _ => ?_
  refine agree_any fun ka _ => agree_any fun kb _ => ?_
  by_cases hc : ka ≠ kb
  · rw [if_pos hc, if_pos hc]; rfl
  · rw [if_neg hc, if_neg hc]
    refine agree_any fun m _ => agree_any fun n _ => agree_any fun sh _ =>
      agree_bind (Q := fun (st : Tensor T × List Int) (st' : Tensor T' × List Int) => Twin R st.1 st'.1 ∧ st.2 = st'.2) ?_ fun st st' hst => agree_pure hst.1
    refine agree_doWhile (I := fun (st : Tensor T × List Int) (st' : Tensor T' × List Int) => Twin R st.1 st'.1 ∧ st.2 = st'.2) ?_ _ ⟨twin_full sh hR.zero, rfl⟩
    rintro ⟨st, is⟩ ⟨st', is'⟩ ⟨hst, rfl⟩
    exact agree_bind (agree_forI hst fun i o o' ho => agree_forI ho fun j o o' ho => agree_bind (Q := R) (twin_sumLoop hR.zero hR.add _ fun p =>
        agree_bind (twin_at ha _) fun x x' hx => agree_bind (twin_at hb _) fun y y' hy => agree_pure (hR.mul _ _ _ _ hx hy)) fun s s' hs => twin_setAt ho _ hs)
      fun r r' hr => agree_pure ⟨rfl, hr, rfl⟩

theorem twin_matmul : SameOutcome (Twin R) (a.matmul b) (a'.matmul b') := by
  have e1 := twin_dotProduct hR ha hb
  have e2 := twin_matrixMatrixMul hR ha hb
  have e3 := twin_matrixVectorMul hR ha hb
  have e4 := twin_batchedMatmul hR ha hb
  unfold Tensor.matmul
  rw [ha.1, hb.1]
  refine agree_ite (fun _ => e1) fun _ => agree_ite (fun _ => e2) fun _ => agree_ite (fun _ => ?_) fun _ => agree_ite (fun _ => e3) fun _ =>
    agree_ite (fun _ => e4) fun _ => rfl
  refine agree_any fun a0 _ => agree_bind (twin_reshaped ha _) fun ar ar' har => agree_bind (twin_matrixMatrixMul hR har hb) fun r r' hr => ?_
  rw [hr.1]
  exact agree_any fun r1 _ => twin_reshaped hr _

end products

/-! ### Sums -/

theorem agree_foldl [Add T] [Add T'] (ha : ∀ x x' y y', R x x' → R y y' → R (x + y) (x' + y')) {xs : List T} {xs' : List T'} (h : List.Forall₂ R xs xs') :
    ∀ {a : T} {a' : T'}, R a a' → R (xs.foldl (· + ·) a) (xs'.foldl (· + ·) a') := by
  induction h with
  | nil => intro a a' h; exact h
  | cons hx _ ih => intro a a' h; exact ih (ha _ _ _ _ h hx)

variable {t : Tensor T} {t' : Tensor T'}

theorem twin_sumAll [Zero T] [Add T] [Zero T'] [Add T'] (h0 : R 0 0) (ha : ∀ x x' y y', R x x' → R y y' → R (x + y) (x' + y')) (h : Twin R t t') :
    SameOutcome (Twin R) t.sumAll t'.sumAll := by
  unfold Tensor.sumAll
  exact agree_bind (agree_iter h) fun xs xs' hx => agree_any fun s _ => agree_pure (twin_full s (agree_foldl ha hx h0))

theorem twin_sumAxis [Zero T] [Add T] [Zero T'] [Add T'] (h0 : R 0 0) (ha : ∀ x x' y y', R x x' → R y y' → R (x + y) (x' + y')) (h : Twin R t t') (axis : Nat) :
    SameOutcome (Twin R) (t.sumAxis axis) (t'.sumAxis axis) := by
  have e := twin_sumAll h0 ha h
  unfold Tensor.sumAxis
  rw [h.1]
  by_cases h1 : axis ≥ t'.shape.rank
  · rw [if_pos h1, if_pos h1]; rfl
  · rw [if_neg h1, if_neg h1]
    refine agree_ite (fun _ => e) fun _ => agree_any fun s _ =>
      agree_bind (Q := fun (st : Tensor T × List Int) (st' : Tensor T' × List Int) => Twin R st.1 st'.1 ∧ st.2 = st'.2) ?_ fun st st' hst => agree_pure hst.1
    refine agree_forN (I := fun (st : Tensor T × List Int) (st' : Tensor T' × List Int) => Twin R st.1 st'.1 ∧ st.2 = st'.2) ⟨twin_full s h0, rfl⟩ ?_
    rintro i ⟨st, is⟩ ⟨st', is'⟩ ⟨hst, rfl⟩
    exact agree_bind (twin_get h i) fun x x' hx => agree_bind (twin_modifyAt hst _ fun y y' hy => ha _ _ _ _ hy hx) fun r r' hr => agree_pure ⟨hr, rfl⟩

theorem twin_sumAxes [Zero T] [Add T] [Zero T'] [Add T'] (h0 : R 0 0) (ha : ∀ x x' y y', R x x' → R y y' → R (x + y) (x' + y')) (h : Twin R t t') (axes : List Nat) :
    SameOutcome (Twin R) (t.sumAxes axes) (t'.sumAxes axes) := by
  unfold Tensor.sumAxes
  rw [h.1]
  refine agree_any fun mk _ => agree_any fun s _ => agree_bind (Q := fun (st : Tensor T × List Int × List Int) (st' : Tensor T' × List Int × List Int) =>
    Twin R st.1 st'.1 ∧ st.2 = st'.2) ?_ fun st st' hst => agree_any fun fs _ => twin_reshape hst.1 _
  refine agree_doWhile (I := fun (st : Tensor T × List Int × List Int) (st' : Tensor T' × List Int × List Int) => Twin R st.1 st'.1 ∧ st.2 = st'.2) ?_ _
    ⟨twin_full s h0, rfl⟩
  rintro ⟨st, is⟩ ⟨st', is'⟩ ⟨hst, hi⟩
  dsimp only at hst hi ⊢
  subst hi
  rw [hst.1]
  refine agree_any fun k _ => ?_
  refine agree_any fun m _ => ?_
  generalize toInt32 (k : Int) = i1
  generalize toInt32 (m : Int) = i2
  refine agree_bind (twin_get h i1) fun x x' hx => agree_bind (twin_get hst i2) fun y y' hy =>
    agree_bind (twin_set hst i2 (ha _ _ _ _ hy hx)) fun r r' hr => agree_pure ⟨rfl, hr, rfl⟩

/-! ### Operations whose success does not depend on the elements -/

theorem forall2_true {xs : List T} {xs' : List T'} (h : xs.length = xs'.length) : List.Forall₂ (fun _ _ => True) xs xs' := by
  induction xs generalizing xs' with
  | nil => cases xs' with
    | nil => exact .nil
    | cons _ _ => simp at h
  | cons x xs ih => cases xs' with
    | nil => simp at h
    | cons y ys => exact .cons trivial (ih (by simpa using h))

/-- Forgetting how the elements are related. -/
theorem Spec.Twin.form (h : Twin R t t') : SameForm t t' := ⟨h.1, forall2_true h.2.length_eq⟩

theorem closed_true [Zero T] [Add T] [Mul T] [Zero T'] [Add T'] [Mul T'] :
    Closed (T := T) (T' := T') (fun _ _ => True) (fun _ _ => True) (fun _ _ => True) := ⟨trivial, fun _ _ _ _ _ _ => trivial, fun _ _ _ _ _ _ => trivial⟩

variable {a b : Tensor T} {a' b' : Tensor T'}

theorem form_map (h : SameForm t t') (f : T → T) (f' : T' → T') : SameOutcome SameForm (t.map f) (t'.map f') := twin_map h fun _ _ _ => trivial
theorem form_binop [Zero T] [Zero T'] (op : T → T → T) (op' : T' → T' → T') (ha : SameForm a a') (hb : SameForm b b') :
    SameOutcome SameForm (Tensor.binop op a b) (Tensor.binop op' a' b') := twin_binop trivial (fun _ _ _ _ _ _ => trivial) ha hb
theorem form_sumAll [Zero T] [Add T] [Zero T'] [Add T'] (h : SameForm t t') : SameOutcome SameForm t.sumAll t'.sumAll := twin_sumAll trivial (fun _ _ _ _ _ _ => trivial) h
theorem form_sumAxis [Zero T] [Add T] [Zero T'] [Add T'] (h : SameForm t t') (n : Nat) : SameOutcome SameForm (t.sumAxis n) (t'.sumAxis n) :=
  twin_sumAxis trivial (fun _ _ _ _ _ _ => trivial) h n
theorem form_sumAxes [Zero T] [Add T] [Zero T'] [Add T'] (h : SameForm t t') (n : List Nat) : SameOutcome SameForm (t.sumAxes n) (t'.sumAxes n) :=
  twin_sumAxes trivial (fun _ _ _ _ _ _ => trivial) h n
theorem form_matmul [Zero T] [Add T] [Mul T] [Zero T'] [Add T'] [Mul T'] (ha : SameForm a a') (hb : SameForm b b') : SameOutcome SameForm (a.matmul b) (a'.matmul b') :=
  twin_matmul closed_true ha hb

theorem form_applyPair [Zero T] [Zero T'] (ha : SameForm a a') (hb : SameForm b b') (f : T → T → T) (f' : T' → T' → T') :
    SameOutcome SameForm (a.applyPair b f) (a'.applyPair b' f') := by
  unfold Tensor.applyPair
  rw [ha.1, hb.1]
  by_cases hc : (!(a'.shape.beq b'.shape)) = true
  · rw [if_pos hc, if_pos hc]; rfl
  · rw [if_neg hc, if_neg hc]
    exact agree_forN (twin_zeros _ trivial) fun i o o' ho => agree_bind (twin_get ha i) fun _ _ _ => agree_bind (twin_get hb i) fun _ _ _ => twin_set ho _ trivial

theorem form_transpose [Zero T] [Zero T'] (h : SameForm t t') (i j : Nat) : SameOutcome SameForm (t.transpose i j) (t'.transpose i j) := by
  unfold Tensor.transpose
  rw [h.1]
  dsimp only
  by_cases hc : i ≥ t'.shape.rank ∨ j ≥ t'.shape.rank
  · rw [if_pos hc, if_pos hc]; rfl
  · rw [if_neg hc, if_neg hc]
    exact agree_any fun s _ => agree_forN (twin_zeros s trivial) fun i o o' ho => agree_any fun k _ => agree_bind (twin_at h _) fun _ _ hx => twin_setAt ho _ hx

theorem form_meanAll [Zero T] [One T] [Add T] [Mul T] [Div T] [NatCast T] [Zero T'] [One T'] [Add T'] [Mul T'] [Div T'] [NatCast T'] (h : SameForm t t') :
    SameOutcome SameForm t.meanAll t'.meanAll := agree_bind (form_sumAll h) fun _ _ hs => form_map hs _ _

theorem form_meanAxes [Zero T] [One T] [Add T] [Mul T] [Div T] [NatCast T] [IntCast T] [Zero T'] [One T'] [Add T'] [Mul T'] [Div T'] [NatCast T'] [IntCast T']
    (h : SameForm t t') (axes : List Nat) : SameOutcome SameForm (t.meanAxes axes) (t'.meanAxes axes) := by
  have e := form_meanAll h
  unfold Tensor.meanAxes
  rw [h.1]
  refine agree_ite (fun _ => e) fun _ => ?_
  refine agree_bind (agree_foldlM (I := SameForm) (fun s s' b hs => ?_) _ h) fun r r' hr => agree_bind (form_map hr _ _) fun r r' hr => twin_reshaped hr _
  rw [hs.1]
  exact agree_ite (fun _ => rfl) fun _ => form_sumAxis hs b

theorem form_varianceAxes [Zero T] [Add T] [Sub T] [Mul T] [Div T] [IntCast T] [Zero T'] [Add T'] [Sub T'] [Mul T'] [Div T'] [IntCast T']
    (h : SameForm t t') {m : Tensor T} {m' : Tensor T'} (hm : SameForm m m') (axes : List Nat) :
    SameOutcome SameForm (t.varianceAxes m axes) (t'.varianceAxes m' axes) := by
  unfold Tensor.varianceAxes
  rw [h.1, hm.1]
  refine agree_any fun total _ => agree_any fun bm _ => agree_bind (agree_iter h) fun xs xs' hx => agree_bind (agree_toList bm hm.2) fun ms ms' hms => ?_
  refine agree_bind (agree_transform2 (R := fun _ _ => True) (fun _ _ _ _ _ _ => trivial) hx hms (forall2_replicate trivial _)) fun d d' hd => ?_
  have hq : SameForm (⟨t'.shape, d⟩ : Tensor T) (⟨t'.shape, d'⟩ : Tensor T') := ⟨rfl, hd⟩
  refine agree_bind (Q := SameForm) (form_sumAxes hq axes) fun s s' hs => ?_
  exact agree_forN (twin_zeros _ trivial) fun i o o' ho => agree_bind (twin_get hs i) fun _ _ _ => twin_set ho _ trivial

theorem form_divScalar [Zero T] [DecidableEq T] [Div T] [Zero T'] [DecidableEq T'] [Div T'] (h : SameForm t t') {s : T} {s' : T'} (hs : s = 0 ↔ s' = 0) :
    SameOutcome SameForm (t.divScalar s) (t'.divScalar s') := by
  unfold Tensor.divScalar
  by_cases h0 : s = 0
  · rw [if_pos h0, if_pos (hs.1 h0)]; rfl
  · rw [if_neg h0, if_neg (h0 ∘ hs.2)]
    exact form_map h _ _

end tensors

section
variable {T T' : Type}

section act
variable [Zero T] [One T] [Add T] [Sub T] [Mul T] [Div T] [Neg T] [NatCast T] [LT T] [DecidableLT T] [LE T] [DecidableLE T] [MathFn T]
  [Zero T'] [One T'] [Add T'] [Sub T'] [Mul T'] [Div T'] [Neg T'] [NatCast T'] [LT T'] [DecidableLT T'] [LE T'] [DecidableLE T'] [MathFn T']
variable {t g : Tensor T} {t' g' : Tensor T'}

omit [Zero T] [One T] [Add T] [Sub T] [Mul T] [Div T] [Neg T] [NatCast T] [LE T] [DecidableLE T] [MathFn T]
  [Zero T'] [One T'] [Add T'] [Sub T'] [Mul T'] [Div T'] [Neg T'] [NatCast T'] [LE T'] [DecidableLE T'] [MathFn T'] in
theorem form_maxElement {d : List T} {d' : List T'} (h : List.Forall₂ (fun _ _ => True) d d') (off n : Int) :
    SameOutcome (fun _ _ => True) (maxElement d off n) (maxElement d' off n) := by
  unfold maxElement
  exact agree_bind (agree_rd h off) fun _ _ _ => agree_forI trivial fun i s s' _ => agree_bind (agree_rd h _) fun _ _ _ => agree_pure trivial

theorem form_softmaxForward (h : SameForm t t') : SameOutcome SameForm (Act.softmaxForward t) (Act.softmaxForward t') := by
  unfold Act.softmaxForward
  rw [h.1]
  by_cases hr : t'.shape.rank < 2
  · rw [if_pos hr, if_pos hr]; rfl
  · rw [if_neg hr, if_neg hr]
    refine agree_any fun bs _ => agree_any fun ft _ => agree_forI (twin_zeros _ trivial) fun b o o' ho => agree_bind (form_maxElement h.2 _ _) fun mv mv' _ => ?_
    refine agree_bind (Q := fun (st : Tensor T × T) (st' : Tensor T' × T') => SameForm st.1 st'.1) ?_ fun st st' hst =>
      agree_forI hst fun i o o' ho => agree_bind (twin_get ho _) fun _ _ _ => twin_set ho _ trivial
    exact agree_forI (I := fun (st : Tensor T × T) (st' : Tensor T' × T') => SameForm st.1 st'.1) ho fun i st st' hst => agree_bind (agree_rd h.2 _) fun _ _ _ =>
      agree_bind (twin_set hst _ trivial) fun o o' ho => agree_pure ho

theorem form_softmaxBackward (h : SameForm t t') (hg : SameForm g g') : SameOutcome SameForm (Act.softmaxBackward t g) (Act.softmaxBackward t' g') := by
  have e := form_softmaxForward h
  unfold Act.softmaxBackward
  rw [h.1, hg.1]
  by_cases hr : t'.shape.rank < 2 ∨ g'.shape.rank < 2
  · rw [if_pos hr, if_pos hr]; rfl
  · rw [if_neg hr, if_neg hr]
    refine agree_bind e fun fo fo' hfo => agree_any fun bs _ => agree_any fun ft _ => agree_forI (twin_zeros _ trivial) fun b o o' ho =>
      agree_forI ho fun i o o' ho => agree_bind (Q := fun _ _ => True) ?_ fun _ _ _ => twin_set ho _ trivial
    refine agree_forI trivial fun j s s' _ => agree_bind (agree_rd hfo.2 _) fun _ _ _ => agree_bind (agree_rd hfo.2 _) fun _ _ _ => agree_bind (agree_rd hg.2 _) fun _ _ _ => ?_
    exact agree_ite (fun _ => agree_pure trivial) fun _ => agree_pure trivial

theorem form_actForward {a : Act T} {a' : Act T'} (ha : SameAct a a') (h : SameForm t t') : SameOutcome SameForm (a.forward t) (a'.forward t') := by
  cases a <;> cases a' <;> first | exact ha.elim | exact form_map h _ _ | exact form_softmaxForward h

theorem form_actBackward {a : Act T} {a' : Act T'} (ha : SameAct a a') (h : SameForm t t') (hg : SameForm g g') :
    SameOutcome SameForm (a.backward t g) (a'.backward t' g') := by
  cases a <;> cases a' <;> first | exact ha.elim | skip
  · exact agree_bind (form_map h _ _) fun _ _ h1 => form_binop _ _ h1 hg
  · exact form_applyPair h hg _ _
  · exact agree_bind (form_map h _ _) fun s s' h1 => agree_bind (Q := SameForm)
      (agree_bind (form_map h1 _ _) fun n n' hn => form_map hn _ _) fun m m' hm => agree_bind (form_binop _ _ h1 hm) fun _ _ h2 => form_binop _ _ h2 hg
  · exact agree_bind (form_map h _ _) fun _ _ h1 => form_binop _ _ h1 hg
  · exact form_applyPair h hg _ _
  · exact form_applyPair h hg _ _
  · exact form_softmaxBackward h hg

end act

section loss
variable [Zero T] [One T] [Add T] [Sub T] [Mul T] [Div T] [Neg T] [NatCast T] [IntCast T] [LT T] [DecidableLT T] [DecidableEq T] [MathFn T]
  [Zero T'] [One T'] [Add T'] [Sub T'] [Mul T'] [Div T'] [Neg T'] [NatCast T'] [IntCast T'] [LT T'] [DecidableLT T'] [DecidableEq T'] [MathFn T']
variable {p t : Tensor T} {p' t' : Tensor T'}

omit [Zero T] [One T] [Add T] [Sub T] [Mul T] [Div T] [Neg T] [NatCast T] [IntCast T] [LT T] [DecidableLT T] [DecidableEq T] [MathFn T]
  [Zero T'] [One T'] [Add T'] [Sub T'] [Mul T'] [Div T'] [Neg T'] [NatCast T'] [IntCast T'] [LT T'] [DecidableLT T'] [DecidableEq T'] [MathFn T'] in
theorem form_mseTarget (hp : SameForm p p') (ht : SameForm t t') : SameOutcome SameForm (Loss.mseTarget p t) (Loss.mseTarget p' t') := by
  unfold Loss.mseTarget
  rw [hp.1, ht.1]
  refine agree_ite (fun _ => agree_ite (fun _ => ?_) fun _ => rfl) fun _ => agree_pure ht
  exact agree_any fun _ _ => agree_any fun _ _ => agree_ite (fun _ => twin_reshaped ht _) fun _ => rfl

variable (hz : SameZeros T T') {L : Loss T} {L' : Loss T'} (hL : SameLoss L L') (hp : SameForm p p') (ht : SameForm t t')
include hz hL hp ht

theorem form_compute : SameOutcome SameForm (L.compute p t) (L'.compute p' t') := by
  cases L <;> cases L' <;> first | exact hL.elim | skip
  · refine agree_bind (form_mseTarget hp ht) fun t t' ht => agree_bind (form_binop _ _ hp ht) fun d d' hd => agree_bind (form_binop _ _ hd hd) fun q q' hq =>
      agree_bind (form_sumAll hq) fun s s' hs => ?_
    rw [hd.1]
    exact form_divScalar hs (hz.nat _)
  · next eps eps' =>
    show SameOutcome SameForm (do
      if !(p.shape.beq t.shape) then throw .invalidArgument
      let batchSize ← p.shape.get 0
      let numClasses ← p.shape.get 1
      let loss ← forI batchSize (0 : T) (fun i loss =>
        forI numClasses loss (fun j loss => do
          let x ← p.at_ [i, j]
          let y ← t.at_ [i, j]
          return loss - y * MathFn.log (Loss.clamp eps x)))
      let sh ← Shape.make [1]
      return Tensor.full sh (loss / (batchSize : T)) : Res (Tensor T)) (do
      if !(p'.shape.beq t'.shape) then throw .invalidArgument
      let batchSize ← p'.shape.get 0
      let numClasses ← p'.shape.get 1
      let loss ← forI batchSize (0 : T') (fun i loss =>
        forI numClasses loss (fun j loss => do
          let x ← p'.at_ [i, j]
          let y ← t'.at_ [i, j]
          return loss - y * MathFn.log (Loss.clamp eps' x)))
      let sh ← Shape.make [1]
      return Tensor.full sh (loss / (batchSize : T')) : Res (Tensor T'))
    rw [hp.1, ht.1]
    by_cases hr : (!(p'.shape.beq t'.shape)) = true
    · rw [if_pos hr, if_pos hr]; rfl
    · rw [if_neg hr, if_neg hr]
      refine agree_any fun bs _ => agree_any fun nc _ => agree_bind (Q := fun _ _ => True) (agree_forI trivial fun i s s' _ => agree_forI trivial fun j s s' _ =>
        agree_bind (twin_at hp _) fun _ _ _ => agree_bind (twin_at ht _) fun _ _ _ => agree_pure trivial) fun _ _ _ => agree_any fun sh _ => agree_pure (twin_full sh trivial)

theorem form_gradient : SameOutcome SameForm (L.gradient p t) (L'.gradient p' t') := by
  cases L <;> cases L' <;> first | exact hL.elim | skip
  · refine agree_bind (form_mseTarget hp ht) fun t t' ht => agree_bind (form_binop _ _ hp ht) fun d d' hd => agree_bind (form_map hd _ _) fun q q' hq => ?_
    rw [hp.1]
    exact form_divScalar hq (hz.nat _)
  · next eps eps' =>
    show SameOutcome SameForm (do
      if !(p.shape.beq t.shape) then throw .invalidArgument
      let batchSize ← p.shape.get 0
      let numClasses ← p.shape.get 1
      let grad ← forI batchSize (Tensor.zeros p.shape) (fun i grad =>
        forI numClasses grad (fun j grad => do
          let x ← p.at_ [i, j]
          let y ← t.at_ [i, j]
          grad.setAt [i, j] (Loss.clamp eps x - y)))
      grad.divScalar (batchSize : T) : Res (Tensor T)) (do
      if !(p'.shape.beq t'.shape) then throw .invalidArgument
      let batchSize ← p'.shape.get 0
      let numClasses ← p'.shape.get 1
      let grad ← forI batchSize (Tensor.zeros p'.shape) (fun i grad =>
        forI numClasses grad (fun j grad => do
          let x ← p'.at_ [i, j]
          let y ← t'.at_ [i, j]
          grad.setAt [i, j] (Loss.clamp eps' x - y)))
      grad.divScalar (batchSize : T') : Res (Tensor T'))
    rw [hp.1, ht.1]
    by_cases hr : (!(p'.shape.beq t'.shape)) = true
    · rw [if_pos hr, if_pos hr]; rfl
    · rw [if_neg hr, if_neg hr]
      exact agree_any fun bs _ => agree_any fun nc _ => agree_bind (agree_forI (twin_zeros _ trivial) fun i o o' ho => agree_forI ho fun j o o' ho =>
        agree_bind (twin_at hp _) fun _ _ _ => agree_bind (twin_at ht _) fun _ _ _ => twin_setAt ho _ trivial) fun g g' hg => form_divScalar hg (hz.int _)

end loss

theorem form_createRandom {ρ ρ' : Type} [LT T] [DecidableLT T] [Zero T] [LT T'] [DecidableLT T'] [Zero T'] (E : Engine ρ T) (E' : Engine ρ' T') (s : Shape)
    (lo hi : T) (lo' hi' : T') (r : ρ) (r' : ρ') :
    SameOutcome (fun p p' => SameForm p.1 p'.1) (createRandom E s lo hi r) (createRandom E' s lo' hi' r') := by
  unfold createRandom
  exact agree_forN (I := fun (st : Tensor T × ρ) (st' : Tensor T' × ρ') => SameForm st.1 st'.1) (twin_zeros s trivial) fun i st st' hst =>
    agree_bind (twin_set hst _ trivial) fun t t' ht => agree_pure ht

theorem form_deref {o : Option (Tensor T)} {o' : Option (Tensor T')} (h : SameOpt o o') : SameOutcome SameForm (derefOpt o) (derefOpt o') := by
  cases o <;> cases o'
  · rfl
  · exact h.elim
  · exact h.elim
  · exact h

end

/-! ### Layers -/

section
variable {T T' : Type} {x g : Tensor T} {x' g' : Tensor T'}

theorem form_ensure2D (h : SameForm x x') : SameOutcome SameForm (FC.ensure2D x) (FC.ensure2D x') := by
  unfold FC.ensure2D
  rw [h.1]
  exact agree_ite (fun _ => agree_any fun n _ => twin_reshaped h _) fun _ => agree_ok h

theorem magree_and_true {σ σ' : Type} {I : σ → σ' → Prop} {m : Mut σ Unit} {m' : Mut σ' Unit} {α α' : Type} {P : α → α' → Prop} {f : Unit → Mut σ α} {f' : Unit → Mut σ' α'}
    (h : MAgree I (fun _ _ => True) m m') (hf : MAgree I P (f ()) (f' ())) : MAgree I P (m >>= f) (m' >>= f') := magree_bind h fun _ _ _ => hf

theorem form_fcForward [Zero T] [Add T] [Mul T] [Zero T'] [Add T'] [Mul T'] (hx : SameForm x x') : MAgree SameFC SameForm (FC.forward x) (FC.forward x') := by
  unfold FC.forward
  refine magree_and_true (magree_modify fun l l' h => { h with input := hx }) (magree_bind magree_get fun l l' hl => magree_lift ?_)
  unfold FC.affine
  rw [hx.1]
  refine agree_bind (form_ensure2D hx) fun _ _ h1 => agree_bind (form_matmul h1 hl.weights) fun _ _ h2 => agree_bind (form_binop _ _ h2 hl.biases) fun o o' ho => ?_
  rw [ho.1]
  exact agree_ite (fun _ => agree_any fun n _ => twin_reshaped ho _) fun _ => agree_pure ho

theorem form_fcBackward [Zero T] [Add T] [Mul T] [Zero T'] [Add T'] [Mul T'] (hg : SameForm g g') : MAgree SameFC SameForm (FC.backward g) (FC.backward g') := by
  unfold FC.backward
  refine magree_bind magree_get fun l l' hl => ?_
  have hi := hl.input
  rcases hx : l.input with _ | x <;> rcases hx' : l'.input with _ | x' <;> rw [hx, hx'] at hi
  · exact magree_lift rfl
  · exact hi.elim
  · exact hi.elim
  · refine magree_bind (magree_lift (form_ensure2D hi)) fun x x' hx => magree_bind (magree_lift (form_ensure2D hg)) fun g g' hg => ?_
    refine magree_bind (Q := SameForm) (magree_lift ?_) fun wg wg' hwg => magree_and_true (magree_modify fun l l' h => { h with weightGradients := hwg })
      (magree_bind (Q := SameForm) (magree_lift ?_) fun bg bg' hbg => magree_and_true (magree_modify fun l l' h => { h with biasGradients := hbg }) (magree_lift ?_))
    · exact agree_bind (form_transpose hx _ _) fun _ _ h => form_matmul h hg
    · refine agree_bind (form_sumAxis hg _) fun s s' hs => ?_
      rw [hl.biases.1]
      exact agree_any fun n _ => twin_reshaped hs _
    · exact agree_bind (form_transpose hl.weights _ _) fun _ _ h => form_matmul hg h

theorem form_flattenForward (hx : SameForm x x') : MAgree (fun l l' => l = l') SameForm (Flatten.forward x) (Flatten.forward x') := by
  unfold Flatten.forward
  rw [hx.1]
  refine magree_ite (fun _ => magree_lift rfl) fun _ => magree_ite (fun _ => magree_pure hx) fun _ => ?_
  exact magree_and_true (magree_modify fun l l' h => rfl) (magree_any fun b => magree_lift (twin_reshaped hx _))

theorem form_flattenBackward (hg : SameForm g g') : MAgree (fun l l' => l = l') SameForm (Flatten.backward g) (Flatten.backward g') := by
  unfold Flatten.backward
  refine magree_bind magree_get fun l l' hl => ?_
  rw [hl]
  exact magree_any fun s => magree_lift (twin_reshape hg _)

section act
variable [Zero T] [One T] [Add T] [Sub T] [Mul T] [Div T] [Neg T] [NatCast T] [IntCast T] [LT T] [DecidableLT T] [LE T] [DecidableLE T] [MathFn T]
  [Zero T'] [One T'] [Add T'] [Sub T'] [Mul T'] [Div T'] [Neg T'] [NatCast T'] [IntCast T'] [LT T'] [DecidableLT T'] [LE T'] [DecidableLE T'] [MathFn T']

theorem form_actLayerForward (hx : SameForm x x') : MAgree SameActLayer SameForm (ActLayer.forward x) (ActLayer.forward x') := by
  unfold ActLayer.forward
  exact magree_and_true (magree_modify fun l l' h => ⟨h.1, hx⟩) (magree_bind magree_get fun l l' hl => magree_lift (form_actForward hl.1 hx))

theorem form_actLayerBackward (hg : SameForm g g') : MAgree SameActLayer SameForm (ActLayer.backward g) (ActLayer.backward g') := by
  unfold ActLayer.backward
  exact magree_bind magree_get fun l l' hl => magree_bind (magree_lift (form_deref hl.2)) fun x x' hx => magree_lift (form_actBackward hl.1 hx hg)
end act

/-! Pooling -/
section pool
variable [LT T] [DecidableLT T] [LT T'] [DecidableLT T']

theorem form_findMax {l : MaxPool T} {l' : MaxPool T'} (hl : SamePool l l') (hx : SameForm x x') (n ic oh ow : Int) :
    SameOutcome (fun _ _ => True) (l.findMax x n ic oh ow) (l'.findMax x' n ic oh ow) := by
  unfold MaxPool.findMax
  rw [hx.1, hl.stride, hl.padding, hl.poolSize]
  exact agree_any fun h _ => agree_any fun w _ => agree_forI trivial fun ph s s' _ => agree_ite (fun _ => trivial) fun _ => agree_forI trivial fun pw s s' _ =>
    agree_ite (fun _ => trivial) fun _ => agree_bind (twin_at hx _) fun _ _ _ => agree_pure trivial

theorem form_poolForward [Zero T] [Zero T'] (hx : SameForm x x') : MAgree SamePool SameForm (MaxPool.forward x) (MaxPool.forward x') := by
  unfold MaxPool.forward
  rw [hx.1]
  refine magree_ite (fun _ => magree_lift rfl) fun _ => ?_
  refine magree_and_true (magree_modify fun l l' h => { h with input := hx }) (magree_bind magree_get fun l l' hl => magree_lift ?_)
  unfold MaxPool.pool MaxPool.outDim
  rw [hx.1, hl.stride, hl.poolSize]
  exact agree_any fun _ _ => agree_any fun _ _ => agree_any fun _ _ => agree_any fun _ _ => agree_any fun _ _ => agree_any fun _ _ => agree_any fun s _ =>
    agree_forI (twin_zeros s trivial) fun _ o o' ho => agree_forI ho fun _ o o' ho => agree_forI ho fun _ o o' ho => agree_forI ho fun _ o o' ho =>
    agree_bind (form_findMax hl hx _ _ _ _) fun _ _ _ => twin_setAt ho _ trivial

end pool

theorem form_dropoutForward {ρ ρ' : Type} [Zero T] [One T] [Sub T] [Mul T] [Div T] [LT T] [DecidableLT T] [Zero T'] [One T'] [Sub T'] [Mul T'] [Div T'] [LT T'] [DecidableLT T']
    (E : Engine ρ T) (E' : Engine ρ' T') (tr : Bool) (hx : SameForm x x') :
    MAgree (fun s s' => SameDropout s.1 s'.1) SameForm (Dropout.forward E tr x) (Dropout.forward E' tr x') := by
  unfold Dropout.forward
  refine magree_ite (fun _ => ?_) fun _ => magree_pure hx
  rw [hx.1]
  refine magree_bind magree_get fun s s' hs => magree_bind (magree_lift (form_createRandom E E' _ _ _ _ _ s.2 s'.2)) fun m m' hm =>
    magree_and_true (magree_set hm) (magree_bind (magree_lift (form_map hm _ _)) fun k k' hk =>
    magree_and_true (magree_modify fun _ _ _ => hk) (magree_bind (magree_lift (form_binop _ _ hx hk)) fun _ _ h => magree_lift (form_map h _ _)))

theorem form_dropoutBackward [Zero T] [Mul T] [Zero T'] [Mul T'] (tr : Bool) (hg : SameForm g g') :
    MAgree SameDropout SameForm (Dropout.backward tr g) (Dropout.backward tr g') := by
  unfold Dropout.backward
  refine magree_bind magree_get fun l l' hl => magree_bind (magree_lift (form_deref hl)) fun m m' hm => ?_
  rw [hg.1, hm.1]
  exact magree_ite (fun _ => magree_lift rfl) fun _ => magree_ite (fun _ => magree_lift (form_binop _ _ hg hm)) fun _ => magree_pure hg

/-! Batch normalisation -/
section bn

theorem form_rfb (h : SameForm x x') (s : Shape) : SameOutcome SameForm (BatchNorm.reshapeForBroadcast x s) (BatchNorm.reshapeForBroadcast x' s) := by
  unfold BatchNorm.reshapeForBroadcast
  rw [h.1]
  exact agree_any fun _ _ => agree_any fun _ _ => agree_ite (fun _ => agree_any fun _ _ => twin_reshaped h _) fun _ => agree_any fun _ _ => twin_reshaped h _

variable [Zero T] [One T] [Add T] [Sub T] [Mul T] [Div T] [Neg T] [NatCast T] [IntCast T] [DecidableEq T] [LT T] [DecidableLT T] [MathFn T]
  [Zero T'] [One T'] [Add T'] [Sub T'] [Mul T'] [Div T'] [Neg T'] [NatCast T'] [IntCast T'] [DecidableEq T'] [LT T'] [DecidableLT T'] [MathFn T']

theorem form_normalise {m v : Tensor T} {m' v' : Tensor T'} (hx : SameForm x x') (hm : SameForm m m') (hv : SameForm v v') (e : T) (e' : T') :
    SameOutcome SameForm (BatchNorm.normalise x m v e) (BatchNorm.normalise x' m' v' e') := by
  unfold BatchNorm.normalise
  exact agree_bind (form_binop _ _ hx hm) fun _ _ ha => agree_bind (form_map hv _ _) fun _ _ hb => agree_bind (form_map hb _ _) fun _ _ hc => form_binop _ _ ha hc

theorem form_scaleShift {m v : Tensor T} {m' v' : Tensor T'} (hx : SameForm x x') (hm : SameForm m m') (hv : SameForm v v') :
    SameOutcome SameForm (BatchNorm.scaleShift x m v) (BatchNorm.scaleShift x' m' v') := agree_bind (form_binop _ _ hx hm) fun _ _ ha => form_binop _ _ ha hv

theorem form_blend {m : Tensor T} {m' : Tensor T'} (hx : SameForm x x') (hm : SameForm m m') (a : T) (a' : T') :
    SameOutcome SameForm (BatchNorm.blend a x m) (BatchNorm.blend a' x' m') :=
  agree_bind (form_map hx _ _) fun _ _ h1 => agree_bind (form_map hm _ _) fun _ _ h2 => form_binop _ _ h1 h2

theorem form_bnForward (tr : Bool) (hx : SameForm x x') : MAgree SameBN SameForm (BatchNorm.forward tr x) (BatchNorm.forward tr x') := by
  unfold BatchNorm.forward
  dsimp only
  rw [hx.1]
  refine magree_ite (fun _ => magree_lift rfl) fun _ => magree_ite (fun _ => ?_) fun _ => ?_
  · exact magree_bind magree_get fun l l' hl =>
      magree_bind (magree_lift (form_meanAxes hx _)) fun bm bm' hbm => magree_and_true (magree_modify fun l l' h => { h with batchMean := hbm })
      (magree_bind (magree_lift (form_varianceAxes hx hbm _)) fun bv bv' hbv => magree_and_true (magree_modify fun l l' h => { h with batchVariance := hbv })
      (magree_bind (magree_lift (form_rfb hbm _)) fun rm rm' hrm => magree_bind (magree_lift (form_rfb hbv _)) fun rv rv' hrv =>
      magree_bind (magree_lift (form_rfb hl.gamma _)) fun rg rg' hrg => magree_bind (magree_lift (form_rfb hl.beta _)) fun rb rb' hrb =>
      magree_bind (magree_lift (form_normalise hx hrm hrv _ _)) fun ni ni' hni => magree_and_true (magree_modify fun l l' h => { h with normalizedInput := hni })
      (magree_bind (magree_lift (form_scaleShift hni hrg hrb)) fun o o' ho => magree_bind (magree_lift (form_blend hl.runningMean hbm _ _)) fun nm nm' hnm =>
      magree_and_true (magree_modify fun l l' h => { h with runningMean := hnm }) (magree_bind (magree_lift (form_blend hl.runningVariance hbv _ _)) fun nv nv' hnv =>
      magree_and_true (magree_modify fun l l' h => { h with runningVariance := hnv }) (magree_pure ho)))))
  · exact magree_bind magree_get fun l l' hl =>
      magree_bind (magree_lift (form_rfb hl.runningMean _)) fun rm rm' hrm => magree_bind (magree_lift (form_rfb hl.runningVariance _)) fun rv rv' hrv =>
      magree_bind (magree_lift (form_rfb hl.gamma _)) fun rg rg' hrg => magree_bind (magree_lift (form_rfb hl.beta _)) fun rb rb' hrb =>
      magree_bind (magree_lift (form_normalise hx hrm hrv _ _)) fun ni ni' hni => magree_lift (form_scaleShift hni hrg hrb)

theorem form_bnGrads (hz : SameZeros T T') {l : BatchNorm T} {l' : BatchNorm T'} (hl : SameBN l l') {bv ni : Tensor T} {bv' ni' : Tensor T'}
    (hbv : SameForm bv bv') (hni : SameForm ni ni') (hg : SameForm g g') :
    SameOutcome (fun r r' => SameForm r.1 r'.1 ∧ SameForm r.2.1 r'.2.1 ∧ SameForm r.2.2 r'.2.2) (l.gradsWith BatchNorm.reshapeForBroadcast bv ni g)
      (l'.gradsWith BatchNorm.reshapeForBroadcast bv' ni' g') := by
  unfold BatchNorm.gradsWith
  dsimp only
  rw [hg.1]
  refine agree_any fun bs _ => agree_bind (form_rfb hl.gamma _) fun rg rg' hrg => agree_bind (form_binop _ _ hg hni) fun _ _ h1 =>
    agree_bind (form_sumAxes h1 _) fun dg dg' hdg => agree_bind (form_sumAxes hg _) fun db db' hdb => agree_bind (form_binop _ _ hg hrg) fun dn dn' hdn =>
    agree_bind (form_map hbv _ _) fun _ _ h2 => agree_bind (form_rfb h2 _) fun _ _ h3 => agree_bind (form_map h3 _ _) fun _ _ h4 =>
    agree_bind (form_map h4 _ _) fun inv inv' hinv => agree_bind (form_binop _ _ hdn hni) fun _ _ h5 => agree_bind (form_sumAxes h5 _) fun _ _ h6 => ?_
  rw [hinv.1]
  exact agree_bind (form_rfb h6 _) fun _ _ h7 => agree_bind (form_map h7 _ _) fun _ _ h8 => agree_bind (form_binop _ _ h8 hinv) fun _ _ h9 =>
    agree_bind (form_binop _ _ h9 hinv) fun _ _ h10 => agree_bind (form_binop _ _ h10 hinv) fun _ _ h11 => agree_bind (form_rfb h11 _) fun dv dv' hdv =>
    agree_bind (form_binop _ _ hdn hinv) fun _ _ h12 => agree_bind (form_map h12 _ _) fun _ _ h13 => agree_bind (form_sumAxes h13 _) fun _ _ h14 =>
    agree_bind (form_rfb h14 _) fun dm dm' hdm => agree_bind (form_binop _ _ hdn hinv) fun _ _ ht1 => agree_bind (form_map hdv _ _) fun _ _ h15 =>
    agree_bind (form_binop _ _ h15 hni) fun _ _ h16 => agree_bind (form_divScalar h16 (hz.int _)) fun _ _ ht2 => agree_bind (form_divScalar hdm (hz.int _)) fun _ _ ht3 =>
    agree_bind (form_binop _ _ ht1 ht2) fun _ _ h17 => agree_bind (form_binop _ _ h17 ht3) fun _ _ h18 => agree_pure ⟨h18, hdg, hdb⟩

theorem form_bnBackward (hz : SameZeros T T') (hg : SameForm g g') : MAgree SameBN SameForm (BatchNorm.backward g) (BatchNorm.backward g') := by
  unfold BatchNorm.backward BatchNorm.backwardWith
  refine magree_bind magree_get fun l l' hl => ?_
  have h1 := hl.batchMean
  have h2 := hl.batchVariance
  have h3 := hl.normalizedInput
  rcases hx : l.batchMean with _ | x <;> rcases hx' : l'.batchMean with _ | x' <;> rw [hx, hx'] at h1
  · exact magree_lift rfl
  · exact h1.elim
  · exact h1.elim
  · rcases hy : l.batchVariance with _ | y <;> rcases hy' : l'.batchVariance with _ | y' <;> rw [hy, hy'] at h2
    · exact magree_lift rfl
    · exact h2.elim
    · exact h2.elim
    · rcases hw : l.normalizedInput with _ | w <;> rcases hw' : l'.normalizedInput with _ | w' <;> rw [hw, hw'] at h3
      · exact magree_lift rfl
      · exact h3.elim
      · exact h3.elim
      · exact magree_bind (magree_lift (form_bnGrads hz hl h2 h3 hg)) fun r r' hr =>
          magree_and_true (magree_modify fun l l' h => { h with gammaGrad := hr.2.1, betaGrad := hr.2.2 }) (magree_pure hr.1)

end bn

/-! Convolution -/
section conv
variable [Zero T] [Add T] [Mul T] [MathFn T] [Zero T'] [Add T'] [Mul T'] [MathFn T']

theorem form_convForward (hx : SameForm x x') : MAgree SameConv SameForm (Conv.forward x) (Conv.forward x') := by
  unfold Conv.forward
  refine magree_bind magree_get fun l l' hl => ?_
  rw [hx.1, hl.inputChannels]
  refine magree_ite (fun _ => magree_lift rfl) fun _ => magree_any fun c => magree_ite (fun _ => magree_lift rfl) fun _ =>
    magree_and_true (magree_modify fun l l' h => { h with input := hx }) (magree_lift ?_)
  unfold Conv.correlate
  rw [hx.1, hl.outputChannels, hl.kernelHeight, hl.kernelWidth]
  exact agree_any fun _ _ => agree_any fun _ _ => agree_any fun _ _ => agree_any fun s _ =>
    agree_forI (twin_zeros s trivial) fun _ o o' ho => agree_forI ho fun _ o o' ho => agree_forI ho fun _ o o' ho => agree_forI ho fun _ o o' ho =>
    agree_bind (Q := fun _ _ => True) (agree_forI trivial fun _ _ _ _ => agree_forI trivial fun _ _ _ _ => agree_bind (twin_at hx _) fun _ _ _ =>
      agree_bind (twin_at hl.weights _) fun _ _ _ => agree_pure trivial) fun _ _ _ => agree_bind (twin_at hl.biases _) fun _ _ _ => twin_setAt ho _ trivial

theorem form_convBackward (hg : SameForm g g') : MAgree SameConv SameForm (Conv.backward g) (Conv.backward g') := by
  unfold Conv.backward
  refine magree_bind magree_get fun l l' hl => ?_
  have hi := hl.input
  rcases hx : l.input with _ | x <;> rcases hx' : l'.input with _ | x' <;> rw [hx, hx'] at hi
  · exact magree_lift rfl
  · exact hi.elim
  · exact hi.elim
  · have hi : SameForm x x' := hi
    refine magree_and_true (magree_modify fun l l' h => { h with
        weightGradients := by rw [h.weights.1]; exact twin_zeros _ trivial, biasGradients := by rw [h.biases.1]; exact twin_zeros _ trivial })
      (magree_bind (Q := SameForm) (magree_lift ?_) fun bg bg' hbg => magree_and_true (magree_modify fun l l' h => { h with biasGradients := hbg })
      (magree_bind (Q := SameForm) (magree_lift ?_) fun wg wg' hwg => magree_and_true (magree_modify fun l l' h => { h with weightGradients := hwg }) (magree_lift ?_)))
    · unfold Conv.biasGrad
      rw [hg.1, hl.biases.1]
      exact agree_any fun h _ => agree_forI (twin_zeros _ trivial) fun _ o o' ho => agree_any fun w _ => agree_forI ho fun _ o o' ho =>
        agree_bind (twin_at hg _) fun _ _ _ => agree_bind (twin_get ho _) fun _ _ _ => twin_set ho _ trivial
    · unfold Conv.weightGrad
      rw [hg.1, hl.weights.1, hl.kernelHeight, hl.kernelWidth]
      exact agree_forI (twin_zeros _ trivial) fun _ o o' ho => agree_forI ho fun _ o o' ho => agree_any fun h _ => agree_bind (Q := fun _ _ => True)
        (agree_forI trivial fun _ _ _ _ => agree_any fun w _ => agree_forI trivial fun _ _ _ _ => agree_bind (twin_at hi _) fun _ _ _ =>
          agree_bind (twin_at hg _) fun _ _ _ => agree_pure trivial) fun _ _ _ => twin_setAt ho _ trivial
    · unfold Conv.inputGrad
      rw [hg.1, hi.1, hl.kernelHeight, hl.kernelWidth]
      exact agree_any fun h _ => agree_forI (twin_full _ trivial) fun _ o o' ho => agree_any fun w _ => agree_forI ho fun _ o o' ho => agree_forI ho fun _ o o' ho =>
        agree_forI ho fun _ o o' ho => agree_bind (twin_at hl.weights _) fun _ _ _ => agree_bind (twin_at hg _) fun _ _ _ => twin_modifyAt ho _ fun _ _ _ => trivial

end conv
end

/-- The element at these indices can be read. -/
def Reads {T : Type} (x : Tensor T) (i : List Int) : Prop := ∃ v, x.at_ i = .ok v

/-- A pooling layer whose last `forward` returned: the corner of every channel can be read. -/
def PoolReady {T : Type} (l : Layer T) : Prop :=
  match l.kind with
  | .maxPool l => ∀ x, l.input = some x → l.poolSize ≤ 0 ∨ ∀ d0 d1, x.shape.get 0 = .ok d0 → x.shape.get 1 = .ok d1 →
      ∀ n c : Int, 0 ≤ n → n < d0 → 0 ≤ c → c < d1 → Reads x [n, c, 0, 0]
  | _ => True

section
variable {K T T' ρ ρ' : Type} [DecidableEq K]

theorem sameOpt_some {t : Tensor T} {t' : Tensor T'} (h : SameForm t t') : SameOpt (some t) (some t') := h

theorem form_lookup [Zero T] [Zero T'] {m : TMap K T} {m' : TMap K T'} (h : ∀ k, SameOpt (m k) (m' k)) (k : K) (s : Shape) :
    SameForm (lookupOrZero m k s) (lookupOrZero m' k s) := by
  have hk := h k
  unfold lookupOrZero
  rcases hx : m k with _ | x <;> rcases hx' : m' k with _ | x' <;> rw [hx, hx'] at hk
  · exact twin_full s trivial
  · exact hk.elim
  · exact hk.elim
  · exact hk

theorem form_assign {m : TMap K T} {m' : TMap K T'} (h : ∀ k, SameOpt (m k) (m' k)) (k : K) {t : Tensor T} {t' : Tensor T'} (ht : SameForm t t') :
    ∀ j, SameOpt (assign m k (some t) j) (assign m' k (some t') j) := by
  intro j
  unfold assign
  split
  · exact ht
  · exact h j

theorem form_assign_mem {m : K → Tensor T} {m' : K → Tensor T'} (h : ∀ k, SameForm (m k) (m' k)) (k : K) {t : Tensor T} {t' : Tensor T'} (ht : SameForm t t') :
    ∀ j, SameForm (assign m k t j) (assign m' k t' j) := by
  intro j
  unfold assign
  split
  · exact ht
  · exact h j

variable [Zero T] [One T] [Add T] [Sub T] [Mul T] [Div T] [Neg T] [NatCast T]
  [IntCast T] [LT T] [DecidableLT T] [LE T] [DecidableLE T] [DecidableEq T] [MathFn T]
  [Zero T'] [One T'] [Add T'] [Sub T'] [Mul T'] [Div T'] [Neg T'] [NatCast T']
  [IntCast T'] [LT T'] [DecidableLT T'] [LE T'] [DecidableLE T'] [DecidableEq T'] [MathFn T']

/-- Choosing between two branches by conditions that agree. -/
theorem agree_iff {α α' : Type} {P : α → α' → Prop} {c c' : Prop} [Decidable c] [Decidable c'] (hc : c ↔ c') {a b : Res α} {a' b' : Res α'}
    (ha : SameOutcome P a a') (hb : SameOutcome P b b') : SameOutcome P (if c then a else b) (if c' then a' else b') := by
  by_cases h : c
  · rw [if_pos h, if_pos (hc.1 h)]; exact ha
  · rw [if_neg h, if_neg (h ∘ hc.2)]; exact hb

theorem form_sgdLoop {o : SGDOptions T} {o' : SGDOptions T'} (ho : o.momentum = 0 ↔ o'.momentum = 0) {w b g : Tensor T} {w' b' g' : Tensor T'}
    (hw : SameForm w w') (hb : SameForm b b') (hg : SameForm g g') (lr : T) (lr' : T') :
    SameOutcome (fun r r' => SameForm r.1 r'.1 ∧ SameForm r.2 r'.2) (SGD.loop o w b g lr) (SGD.loop o' w' b' g' lr') := by
  unfold SGD.loop
  rw [hw.1]
  refine agree_forN (I := fun (r : Tensor T × Tensor T) (r' : Tensor T' × Tensor T') => SameForm r.1 r'.1 ∧ SameForm r.2 r'.2) ⟨hw, hb⟩ fun j st st' hst =>
    agree_bind (agree_rd hg.2 j) fun _ _ _ => agree_bind (agree_rd hst.1.2 j) fun _ _ _ => ?_
  refine agree_iff (not_congr ho) ?_ ?_
  · exact agree_bind (twin_get hst.2 _) fun _ _ _ => agree_bind (twin_set hst.2 _ trivial) fun b b' hb => agree_bind (twin_set hst.1 _ trivial) fun w w' hw =>
      agree_pure ⟨hw, hb⟩
  · exact agree_bind (twin_set hst.1 _ trivial) fun w w' hw => agree_pure ⟨hw, hst.2⟩

/-- The four tensors of an RMSProp update. -/
def SameRMS (s : RMSState T) (s' : RMSState T') : Prop := SameForm s.weight s'.weight ∧ SameForm s.sq s'.sq ∧ SameForm s.mean s'.mean ∧ SameForm s.vel s'.vel

theorem form_rmsLoop {o : RMSPropOptions T} {o' : RMSPropOptions T'} (hc : o.centered = o'.centered) (hm : 0 < o.momentum ↔ 0 < o'.momentum)
    {s : RMSState T} {s' : RMSState T'} (hs : SameRMS s s') {g : Tensor T} {g' : Tensor T'} (hg : SameForm g g') (lr : T) (lr' : T') :
    SameOutcome SameRMS (RMSProp.loop o s g lr) (RMSProp.loop o' s' g' lr') := by
  unfold RMSProp.loop
  rw [hs.1.1]
  refine agree_forN hs fun j st st' hst => agree_bind (agree_rd hg.2 j) fun _ _ _ => agree_bind (agree_rd hst.1.2 j) fun _ _ _ =>
    agree_bind (twin_get hst.2.1 _) fun _ _ _ => agree_bind (twin_set hst.2.1 _ trivial) fun sq sq' hsq => ?_
  refine agree_bind (Q := fun (r : RMSState T × T) (r' : RMSState T' × T') => SameRMS r.1 r'.1) ?_ fun r r' hr => ?_
  · refine agree_iff (by rw [hc]) (agree_bind (twin_get hst.2.2.1 _) fun _ _ _ => agree_bind (twin_set hst.2.2.1 _ trivial) fun m m' hm => agree_pure ?_) (agree_pure ?_)
    · exact ⟨hst.1, hsq, hm, hst.2.2.2⟩
    · exact ⟨hst.1, hsq, hst.2.2.1, hst.2.2.2⟩
  · refine agree_iff hm ?_ ?_
    · exact agree_bind (twin_get hr.2.2.2 _) fun _ _ _ => agree_bind (twin_set hr.2.2.2 _ trivial) fun v v' hv => agree_bind (twin_set hr.1 _ trivial) fun w w' hw =>
        agree_pure ⟨hw, hr.2.1, hr.2.2.1, hv⟩
    · exact agree_bind (twin_set hr.1 _ trivial) fun w w' hw => agree_pure ⟨hw, hr.2.1, hr.2.2.1, hr.2.2.2⟩

theorem form_adamLoop (o : AdamOptions T) (o' : AdamOptions T') (lr : T) (lr' : T') (n n' : Nat) {s : Tensor T × Tensor T × Tensor T}
    {s' : Tensor T' × Tensor T' × Tensor T'} (hs : SameForm s.1 s'.1 ∧ SameForm s.2.1 s'.2.1 ∧ SameForm s.2.2 s'.2.2) {g : Tensor T} {g' : Tensor T'} (hg : SameForm g g') :
    SameOutcome (fun s s' => SameForm s.1 s'.1 ∧ SameForm s.2.1 s'.2.1 ∧ SameForm s.2.2 s'.2.2) (Adam.loop o lr n s g) (Adam.loop o' lr' n' s' g') := by
  unfold Adam.loop
  rw [hs.1.1]
  exact agree_forN (I := fun (s : Tensor T × Tensor T × Tensor T) (s' : Tensor T' × Tensor T' × Tensor T') =>
      SameForm s.1 s'.1 ∧ SameForm s.2.1 s'.2.1 ∧ SameForm s.2.2 s'.2.2) hs fun j st st' hst =>
    agree_bind (agree_rd hst.1.2 j) fun _ _ _ => agree_bind (agree_rd hg.2 j) fun _ _ _ => agree_bind (twin_get hst.2.1 _) fun _ _ _ => agree_bind (twin_get hst.2.2 _) fun _ _ _ =>
    agree_bind (twin_set hst.2.1 _ trivial) fun m m' hm => agree_bind (twin_set hst.2.2 _ trivial) fun v v' hv => agree_bind (twin_set hst.1 _ trivial) fun w w' hw =>
    agree_pure ⟨hw, hm, hv⟩

/-- The weights in memory and the buffers of the optimizer. -/
def SameWorld (w : World K T) (w' : World K T') : Prop := (∀ k, SameForm (w.mem k) (w'.mem k)) ∧ SameOptimizer w.opt w'.opt

theorem form_updateTensors (lr : T) (lr' : T') {ps : List (K × Tensor T)} {ps' : List (K × Tensor T')}
    (hp : List.Forall₂ (fun p p' => p.1 = p'.1 ∧ SameForm p.2 p'.2) ps ps') {w : World K T} {w' : World K T'} (hw : SameWorld w w') :
    SameOutcome SameWorld (w.updateTensors lr ps) (w'.updateTensors lr' ps') := by
  unfold World.updateTensors
  refine agree_foldlM2 ?_ hp hw
  rintro ⟨mem, opt⟩ ⟨mem', opt'⟩ ⟨k, g⟩ ⟨k', g'⟩ ⟨h1, h2⟩ ⟨hk, hg⟩
  dsimp only at h1 h2 hk hg
  subst hk
  cases opt <;> cases opt' <;> first | exact h2.elim | skip
  · next o o' =>
    refine agree_bind (Q := fun (r : SGD K T × (K → Tensor T)) (r' : SGD K T' × (K → Tensor T')) => SameOptimizer (.sgd r.1) (.sgd r'.1) ∧ ∀ k, SameForm (r.2 k) (r'.2 k)) ?_
      fun r r' hr => agree_pure ⟨hr.2, hr.1⟩
    refine agree_bind (Q := fun (r : Tensor T × Tensor T) (r' : Tensor T' × Tensor T') => SameForm r.1 r'.1 ∧ SameForm r.2 r'.2) ?_ fun r r' hr =>
      agree_pure ⟨⟨h2.1, form_assign h2.2 k hr.2⟩, form_assign_mem h1 k hr.1⟩
    refine form_sgdLoop h2.1 (h1 k) ?_ hg _ _
    rw [(h1 k).1]
    exact form_lookup h2.2 k _
  · next o o' =>
    refine agree_bind (Q := fun (r : RMSProp K T × (K → Tensor T)) (r' : RMSProp K T' × (K → Tensor T')) => SameOptimizer (.rmsprop r.1) (.rmsprop r'.1) ∧
      ∀ k, SameForm (r.2 k) (r'.2 k)) ?_ fun r r' hr => agree_pure ⟨hr.2, hr.1⟩
    unfold RMSProp.updateTensor
    dsimp only
    rw [(h1 k).1]
    refine agree_bind (form_rmsLoop h2.1 h2.2.1 ⟨h1 k, form_lookup h2.2.2.1 k _, form_lookup h2.2.2.2.1 k _, form_lookup h2.2.2.2.2 k _⟩ hg _ _) fun r r' hr => agree_pure
      ⟨⟨h2.1, h2.2.1, form_assign h2.2.2.1 k hr.2.1, ?_, ?_⟩, form_assign_mem h1 k hr.1⟩
    · dsimp only
      rw [h2.1]
      split
      · exact form_assign h2.2.2.2.1 k hr.2.2.1
      · exact h2.2.2.2.1
    · dsimp only
      by_cases hm : 0 < o.opts.momentum
      · rw [if_pos hm, if_pos (h2.2.1.1 hm)]
        exact form_assign h2.2.2.2.2 k hr.2.2.2
      · rw [if_neg hm, if_neg (hm ∘ h2.2.1.2)]
        exact h2.2.2.2.2
  · next o o' =>
    refine agree_bind (Q := fun (r : Adam K T × (K → Tensor T)) (r' : Adam K T' × (K → Tensor T')) => SameOptimizer (.adam r.1) (.adam r'.1) ∧
      ∀ k, SameForm (r.2 k) (r'.2 k)) ?_ fun r r' hr => agree_pure ⟨hr.2, hr.1⟩
    unfold Adam.updateTensor
    rw [(h1 k).1]
    exact agree_bind (form_adamLoop _ _ _ _ _ _ ⟨h1 k, form_lookup h2.1 k _, form_lookup h2.2 k _⟩ hg) fun r r' hr =>
      agree_pure ⟨⟨form_assign h2.1 k hr.2.1, form_assign h2.2 k hr.2.2⟩, form_assign_mem h1 k hr.1⟩

theorem form_optimizePair (k0 k1 : K) {opt : Optimizer K T} {opt' : Optimizer K T'} (ho : SameOptimizer opt opt') {p0 p1 g0 g1 : Tensor T} {p0' p1' g0' g1' : Tensor T'}
    (h0 : SameForm p0 p0') (h1 : SameForm p1 p1') (hg0 : SameForm g0 g0') (hg1 : SameForm g1 g1') :
    SameOutcome (fun _ _ => True) (Layer.optimizePair k0 k1 opt p0 p1 g0 g1).1 (Layer.optimizePair k0 k1 opt' p0' p1' g0' g1').1 ∧
    SameForm (Layer.optimizePair k0 k1 opt p0 p1 g0 g1).2.1 (Layer.optimizePair k0 k1 opt' p0' p1' g0' g1').2.1 ∧
    SameForm (Layer.optimizePair k0 k1 opt p0 p1 g0 g1).2.2.1 (Layer.optimizePair k0 k1 opt' p0' p1' g0' g1').2.2.1 ∧
    SameOptimizer (Layer.optimizePair k0 k1 opt p0 p1 g0 g1).2.2.2 (Layer.optimizePair k0 k1 opt' p0' p1' g0' g1').2.2.2 := by
  have hw : SameWorld (⟨fun k => if k = k0 then p0 else p1, opt⟩ : World K T) ⟨fun k => if k = k0 then p0' else p1', opt'⟩ := by
    refine ⟨fun k => ?_, ho⟩
    dsimp only
    split
    · exact h0
    · exact h1
  have hb : SameWorld (World.begin (⟨fun k => if k = k0 then p0 else p1, opt⟩ : World K T) (-1)) (World.begin ⟨fun k => if k = k0 then p0' else p1', opt'⟩ (-1)) := by
    cases opt <;> cases opt' <;> first | exact ho.elim | exact hw
  have hu := form_updateTensors (-1 : T) (-1 : T') (ps := [k0, k1].zip [g0, g1]) (ps' := [k0, k1].zip [g0', g1']) (.cons ⟨rfl, hg0⟩ (.cons ⟨rfl, hg1⟩ .nil)) hb
  unfold Layer.optimizePair World.optimizeM
  dsimp only
  rw [if_neg (by simp), if_neg (by simp)]
  rcases hr : World.updateTensors (World.begin (⟨fun k => if k = k0 then p0 else p1, opt⟩ : World K T) (-1)) (-1) ([k0, k1].zip [g0, g1]) with e | w <;>
    rcases hr' : World.updateTensors (World.begin (⟨fun k => if k = k0 then p0' else p1', opt'⟩ : World K T') (-1)) (-1) ([k0, k1].zip [g0', g1']) with e' | w' <;>
    rw [hr, hr'] at hu
  · exact ⟨hu, hw.1 _, hw.1 _, ho⟩
  · exact hu.elim
  · exact hu.elim
  · exact ⟨trivial, hu.1 _, hu.1 _, hu.2⟩

/-! ### Layers in a model -/

omit [One T] [Sub T] [Mul T] [Div T] [Neg T] [NatCast T] [IntCast T] [LE T] [DecidableLE T] [DecidableEq T] [MathFn T] [Add T] [DecidableEq K] in
theorem poolForward_padding (x : Tensor T) (l : MaxPool T) : (MaxPool.forward x l).2.padding = l.padding ∧ (MaxPool.forward x l).2.poolSize = l.poolSize := by
  unfold MaxPool.forward
  split
  · exact ⟨rfl, rfl⟩
  · exact ⟨rfl, rfl⟩

theorem form_layerForward (E : Engine ρ T) (E' : Engine ρ' T') {x : Tensor T} {x' : Tensor T'} (hx : SameForm x x') :
    MAgree (fun (s : Layer T × ρ) (s' : Layer T' × ρ') => SameLayer s.1 s'.1) SameForm (Layer.forward E x) (Layer.forward E' x') := by
  rintro ⟨⟨k, md⟩, r⟩ ⟨⟨k', md'⟩, r'⟩ ⟨hk, hm⟩
  dsimp only at hk hm
  subst hm
  cases k <;> cases k' <;> first | exact hk.elim | skip
  · have h := form_fcForward hx _ _ hk
    exact ⟨⟨h.1, rfl⟩, h.2⟩
  · have h := form_convForward hx _ _ hk
    exact ⟨⟨h.1, rfl⟩, h.2⟩
  · have h := form_flattenForward hx _ _ hk
    exact ⟨⟨h.1, rfl⟩, h.2⟩
  · next l l' =>
    have h := form_poolForward hx _ _ hk.1
    exact ⟨⟨⟨h.1, by rw [(poolForward_padding _ _).1]; exact hk.2⟩, rfl⟩, h.2⟩
  · have h := form_bnForward md hx _ _ hk
    exact ⟨⟨h.1, rfl⟩, h.2⟩
  · next l l' =>
    have h := form_dropoutForward E E' md hx (l, r) (l', r') hk
    exact ⟨⟨h.1, rfl⟩, h.2⟩
  · have h := form_actLayerForward hx _ _ hk
    exact ⟨⟨h.1, rfl⟩, h.2⟩

theorem form_forwardLayers (E : Engine ρ T) (E' : Engine ρ' T') {ls : List (Layer T)} {ls' : List (Layer T')} (hl : List.Forall₂ SameLayer ls ls') :
    ∀ {x : Tensor T} {x' : Tensor T'} (_ : SameForm x x') (r : ρ) (r' : ρ'),
      SameOutcome SameForm (forwardLayers E ls x r).1 (forwardLayers E' ls' x' r').1 ∧
      List.Forall₂ SameLayer (forwardLayers E ls x r).2.1 (forwardLayers E' ls' x' r').2.1 := by
  induction hl with
  | nil => intro x x' hx r r'; exact ⟨hx, .nil⟩
  | @cons l l' ls ls' h1 h2 ih =>
    intro x x' hx r r'
    have hf := form_layerForward E E' hx (l, r) (l', r') h1
    unfold forwardLayers
    rcases hy : Layer.forward E x (l, r) with ⟨e | y, l1, r1⟩ <;> rcases hy' : Layer.forward E' x' (l', r') with ⟨e' | y', l1', r1'⟩ <;> rw [hy, hy'] at hf
    · exact ⟨hf.2, .cons hf.1 h2⟩
    · exact hf.2.elim
    · exact hf.2.elim
    · have := ih hf.2 r1 r1'
      exact ⟨this.1, .cons hf.1 this.2⟩

theorem form_predict (E : Engine ρ T) (E' : Engine ρ' T') {x : Tensor T} {x' : Tensor T'} (hx : SameForm x x') :
    MAgree SameNet SameForm (Net.predict E x) (Net.predict E' x') := by
  intro net net' hn
  have := form_forwardLayers E E' hn.layers hx net.rng net'.rng
  exact ⟨⟨this.2, hn.loss, hn.optimizer⟩, this.1⟩

end

section
variable {T T' : Type}

theorem ran_bind {α β : Type} (b : β) (f : β → Res α) : ((.ok b : Res β) >>= f) = f b := rfl

theorem agree_forN_lt {σ σ' : Type} {I : σ → σ' → Prop} {n : Nat} {s : σ} {s' : σ'} {f : Nat → σ → Res σ} {f' : Nat → σ' → Res σ'} (h0 : I s s')
    (hf : ∀ i, i < n → ∀ s s', I s s' → SameOutcome I (f i s) (f' i s')) : SameOutcome I (forN n s f) (forN n s' f') := by
  induction n with
  | zero => exact h0
  | succ n ih =>
    rw [forN_succ, forN_succ]
    exact agree_bind (ih fun i hi => hf i (by omega)) fun a b h => hf n (by omega) a b h

theorem agree_forI_lt {σ σ' : Type} {I : σ → σ' → Prop} {n : Int} {s : σ} {s' : σ'} {f : Int → σ → Res σ} {f' : Int → σ' → Res σ'} (h0 : I s s')
    (hf : ∀ i, 0 ≤ i → i < n → ∀ s s', I s s' → SameOutcome I (f i s) (f' i s')) : SameOutcome I (forI n s f) (forI n s' f') :=
  agree_forN_lt h0 fun i hi s s' h => hf i (by omega) (by omega) s s' h

theorem forN_ran {σ : Type} {n : Nat} {s r : σ} {f : Nat → σ → Res σ} (h : forN n s f = .ok r) : ∀ i, i < n → ∃ a b, f i a = .ok b := by
  induction n generalizing r with
  | zero => intro i hi; omega
  | succ n ih =>
    rw [forN_succ] at h
    rcases hx : forN n s f with e | a
    · rw [hx] at h; cases h
    · rw [hx] at h
      intro i hi
      rcases Nat.lt_succ_iff_lt_or_eq.1 hi with h' | rfl
      · exact ih hx i h'
      · exact ⟨a, r, h⟩

theorem forI_ran {σ : Type} {n : Int} {s r : σ} {f : Int → σ → Res σ} (h : forI n s f = .ok r) (i : Int) (h0 : 0 ≤ i) (hi : i < n) : ∃ a b, f i a = .ok b := by
  obtain ⟨a, b, e⟩ := forN_ran h i.toNat (by omega)
  rw [Int.toNat_of_nonneg h0] at e
  exact ⟨a, b, e⟩

theorem bind_ran {α β : Type} {m : Res β} {f : β → Res α} {a : α} (h : m >>= f = .ok a) : ∃ b, m = .ok b ∧ f b = .ok a := by
  cases m with
  | error e => cases h
  | ok b => exact ⟨b, rfl, h⟩

theorem agree_and {α α' : Type} {P : α → α' → Prop} {Q : α → Prop} {Q' : α' → Prop} {r : Res α} {r' : Res α'} (h : SameOutcome P r r') (hq : Gives Q r) (hq' : Gives Q' r') :
    SameOutcome (fun a a' => P a a' ∧ Q a ∧ Q' a') r r' := by
  cases r <;> cases r'
  · exact h
  · exact h.elim
  · exact h.elim
  · exact ⟨h, hq _ rfl, hq' _ rfl⟩

theorem flatIndexLoop_nonneg : ∀ (is ds : List Int) (ss : List Nat) (acc k : Nat), flatIndexLoop ds ss is acc = .ok k → ∀ i ∈ is, 0 ≤ i := by
  intro is
  induction is with
  | nil => intro ds ss acc k _ i hi; cases hi
  | cons j is ih =>
    intro ds ss acc k h i hi
    cases ds with
    | nil => cases h
    | cons d ds =>
      cases ss with
      | nil => cases h
      | cons s ss =>
        unfold flatIndexLoop at h
        split at h
        · cases h
        · next hn =>
          rcases List.mem_cons.1 hi with rfl | hi
          · omega
          · exact ih ds ss _ k h i hi

theorem Reads.nonneg {x : Tensor T} {is : List Int} (h : Reads x is) : ∀ i ∈ is, 0 ≤ i := by
  obtain ⟨v, h⟩ := h
  obtain ⟨k, h1, -⟩ := bind_ran h
  unfold computeFlatIndex at h1
  split at h1
  · cases h1
  · exact flatIndexLoop_nonneg _ _ _ _ _ h1

theorem reads_twin {x : Tensor T} {x' : Tensor T'} (hx : SameForm x x') {is : List Int} (h : Reads x is) : Reads x' is := by
  obtain ⟨v, h⟩ := h
  have := twin_at hx is
  rw [h] at this
  rcases hr : x'.at_ is with e | a
  · rw [hr] at this; exact this.elim
  · exact ⟨a, hr⟩

/-- Same shape and same amount of storage. -/
def Cast (x t : Tensor T) : Prop := t.shape = x.shape ∧ t.data.length = x.data.length

theorem modifyAt_cast {x t : Tensor T} (h : Cast x t) (i : List Int) (f : T → T) : Gives (Cast x) (t.modifyAt i f) := by
  unfold Tensor.modifyAt
  refine gives_any fun k => gives_any fun v => gives_bind wr_gives_len fun d hd => gives_pure ⟨h.1, hd.trans h.2⟩

theorem modifyAt_reads {x t : Tensor T} (h : Cast x t) {i : List Int} (hi : Reads x i) (f : T → T) : ∃ t1, t.modifyAt i f = .ok t1 := by
  obtain ⟨v, hv⟩ := hi
  obtain ⟨k, h1, h2⟩ := bind_ran hv
  have hk : k < x.data.length := by
    unfold rd at h2
    by_contra hc
    rw [if_pos (by omega), List.getElem?_eq_none (by simpa using hc)] at h2
    cases h2
  unfold Tensor.modifyAt
  rw [h.1, h1, ran_bind]
  have hk' : k < t.data.length := h.2 ▸ hk
  have : rd t.data k = .ok t.data[k] := by
    unfold rd
    rw [if_pos (by omega)]
    simp [hk']
  rw [this, ran_bind]
  unfold wr
  rw [if_pos (by omega)]
  exact ⟨_, rfl⟩

theorem cast_form {x t : Tensor T} {x' t' : Tensor T'} (hx : SameForm x x') (h : Cast x t) (h' : Cast x' t') : SameForm t t' := by
  refine ⟨by rw [h.1, h'.1, hx.1], forall2_true ?_⟩
  rw [h.2, h'.2, hx.2.length_eq]

section pool
variable [LT T] [DecidableLT T] [LT T'] [DecidableLT T']

theorem findMax_index (l : MaxPool T) (x : Tensor T) (n c oh ow : Int) :
    Gives (fun m => m.2 = (0, 0) ∨ (0 < l.poolSize ∧ Reads x [n, c, m.2.1, m.2.2])) (l.findMax x n c oh ow) := by
  unfold MaxPool.findMax
  refine gives_any fun h => gives_any fun w => ?_
  have key : ∀ (i : Int), 0 ≤ i → i < l.poolSize → 0 < l.poolSize := fun i _ _ => by omega
  by_cases hp : 0 < l.poolSize
  · refine gives_forI (I := fun m : T × Int × Int => m.2 = (0, 0) ∨ (0 < l.poolSize ∧ Reads x [n, c, m.2.1, m.2.2])) (Or.inl rfl) fun ph st hst => gives_ite (gives_ok hst) ?_
    refine gives_forI hst fun pw st hst => gives_ite (gives_ok hst) ?_
    intro m hm
    obtain ⟨v, hv, hm⟩ := bind_ran hm
    cases hm
    split
    · exact Or.inr ⟨hp, v, hv⟩
    · exact hst
  · have : l.poolSize.toNat = 0 := by omega
    unfold forI
    rw [this]
    exact gives_ok (Or.inl rfl)

theorem form_unpool [Zero T] [Add T] [Zero T'] [Add T'] {l : MaxPool T} {l' : MaxPool T'} (hl : SamePool l l') {x g : Tensor T} {x' g' : Tensor T'} (hx : SameForm x x')
    (hg : SameForm g g') (hlen : x.data.length = x.shape.size)
    (hr : l.poolSize ≤ 0 ∨ ∀ d0 d1, x.shape.get 0 = .ok d0 → x.shape.get 1 = .ok d1 → ∀ n c : Int, 0 ≤ n → n < d0 → 0 ≤ c → c < d1 → Reads x [n, c, 0, 0]) :
    SameOutcome SameForm (l.unpool x g) (l'.unpool x' g') := by
  have hlen' : x'.data.length = x'.shape.size := by rw [← hx.1, ← hlen, hx.2.length_eq]
  unfold MaxPool.unpool
  rw [← hx.1, ← hg.1]
  refine agree_any fun d0 h0 => agree_any fun d1 h1 => agree_any fun oh _ => agree_any fun ow _ => ?_
  refine SameOutcome.mono (P := fun t t' => Cast x t ∧ Cast x' t') ?_ fun t t' h => cast_form hx h.1 h.2
  refine agree_forI_lt ⟨⟨rfl, by simp [Tensor.full, hlen]⟩, ⟨hx.1, by simp [Tensor.full, hlen', hx.1]⟩⟩ fun n hn0 hn1 t t' ht => ?_
  refine agree_forI_lt ht fun c hc0 hc1 t t' ht => agree_forI ht fun oh t t' ht => agree_forI ht fun ow t t' ht => ?_
  refine agree_bind (agree_and (form_findMax hl hx n c oh ow) (findMax_index l x n c oh ow) (findMax_index l' x' n c oh ow)) fun m m' hm => ?_
  refine agree_bind (twin_at hg _) fun v v' _ => ?_
  have both : ∀ {i i' : List Int} {f : T → T} {f' : T' → T'}, Reads x i → Reads x' i' → SameOutcome (fun t t' => Cast x t ∧ Cast x' t') (t.modifyAt i f) (t'.modifyAt i' f') := by
    intro i i' f f' hi hi'
    obtain ⟨a, ha⟩ := modifyAt_reads ht.1 hi f
    obtain ⟨b, hb⟩ := modifyAt_reads ht.2 hi' f'
    rw [ha, hb]
    exact ⟨modifyAt_cast ht.1 _ _ _ ha, modifyAt_cast ht.2 _ _ _ hb⟩
  by_cases he : m.2 = m'.2
  · rw [he]
    exact (agree_and (twin_modifyAt (cast_form hx ht.1 ht.2) _ fun _ _ _ => trivial) (modifyAt_cast ht.1 _ _) (modifyAt_cast ht.2 _ _)).mono fun _ _ h => h.2
  · have hp : 0 < l.poolSize := by
      by_contra hc
      have h1 : m.2 = (0, 0) := hm.2.1.resolve_right fun h => hc h.1
      have h2 : m'.2 = (0, 0) := hm.2.2.resolve_right fun h => hc (hl.poolSize ▸ h.1)
      exact he (h1.trans h2.symm)
    have hcorner := (hr.resolve_left (by omega)) d0 d1 h0 h1 n c hn0 hn1 hc0 hc1
    refine both ?_ ?_
    · rcases hm.2.1 with h | h
      · rw [h]; exact hcorner
      · exact h.2
    · rcases hm.2.2 with h | h
      · rw [h]; exact reads_twin hx hcorner
      · exact h.2

theorem pool_corner [Zero T] {l : MaxPool T} {x y : Tensor T} (hx : Intact x) (hp : 0 ≤ l.padding) (h : l.pool x = .ok y) :
    l.poolSize ≤ 0 ∨ ∀ d0 d1, x.shape.get 0 = .ok d0 → x.shape.get 1 = .ok d1 → ∀ n c : Int, 0 ≤ n → n < d0 → 0 ≤ c → c < d1 → Reads x [n, c, 0, 0] := by
  by_cases hps : l.poolSize ≤ 0
  · exact Or.inl hps
  · right
    intro d0 d1 h0 h1 n c hn0 hn1 hc0 hc1
    unfold MaxPool.pool at h
    rw [h0, h1] at h
    simp only [ran_bind] at h
    obtain ⟨d2, h2, h⟩ := bind_ran h
    obtain ⟨d3, h3, h⟩ := bind_ran h
    obtain ⟨oh, -, h⟩ := bind_ran h
    obtain ⟨ow, -, h⟩ := bind_ran h
    obtain ⟨s, hs, h⟩ := bind_ran h
    have hpos : ∀ d ∈ [d0, d1, oh, ow], 0 < d := by
      intro d hd
      by_contra hc
      unfold Shape.make validateDimensions at hs
      rw [if_neg (by simp), if_pos (by rw [List.any_eq_true]; exact ⟨d, hd, by simpa using hc⟩)] at hs
      cases hs
    have hd : ∀ d, (x.shape.get 2 = .ok d ∨ x.shape.get 3 = .ok d) → 0 < d := by
      intro d hd
      have hm : d ∈ x.shape.dims := by
        rcases hd with hd | hd <;>
        · unfold Shape.get rd at hd
          rw [if_pos (by omega)] at hd
          split at hd
          · next hv => cases hd; exact List.mem_of_getElem? hv
          · cases hd
      by_contra hc
      have hg := hx.1
      unfold Shape.make validateDimensions at hg
      rw [if_neg (by intro he; rw [List.isEmpty_iff.1 he] at hm; cases hm), if_pos (by rw [List.any_eq_true]; exact ⟨d, hm, by simpa using hc⟩)] at hg
      cases hg
    obtain ⟨_, _, h⟩ := forI_ran h n hn0 hn1
    obtain ⟨_, _, h⟩ := forI_ran h c hc0 hc1
    obtain ⟨_, _, h⟩ := forI_ran h 0 le_rfl (hpos oh (by simp))
    obtain ⟨_, _, h⟩ := forI_ran h 0 le_rfl (hpos ow (by simp))
    obtain ⟨m, h, -⟩ := bind_ran h
    unfold MaxPool.findMax at h
    rw [h2, h3] at h
    simp only [ran_bind] at h
    obtain ⟨_, _, h⟩ := forI_ran h 0 le_rfl (by omega)
    rw [if_neg (by have := hd d2 (Or.inl h2); omega)] at h
    obtain ⟨_, _, h⟩ := forI_ran h 0 le_rfl (by omega)
    rw [if_neg (by have := hd d3 (Or.inr h3); omega)] at h
    obtain ⟨v, h, -⟩ := bind_ran h
    have hr : Reads x [n, c, 0 * l.stride - l.padding + 0, 0 * l.stride - l.padding + 0] := ⟨v, h⟩
    have := hr.nonneg (0 * l.stride - l.padding + 0) (by simp)
    have hz : l.padding = 0 := by omega
    rw [hz] at hr
    simpa using hr

end pool
end

/-- Two programs that agree in their results; `J` relates the states after success, `F` those after a failure. -/
def HAgree {σ σ' α α' : Type} (I J F : σ → σ' → Prop) (P : α → α' → Prop) (m : Mut σ α) (m' : Mut σ' α') : Prop :=
  ∀ s s', I s s' → SameOutcome P (m s).1 (m' s').1 ∧ ((∃ a, (m s).1 = .ok a) → J (m s).2 (m' s').2) ∧ ((∃ e, (m s).1 = .error e) → F (m s).2 (m' s').2)

section
variable {σ σ' α α' β β' : Type} {I J L F : σ → σ' → Prop} {P : α → α' → Prop} {Q : β → β' → Prop}

theorem hagree_bind {m : Mut σ β} {m' : Mut σ' β'} {f : β → Mut σ α} {f' : β' → Mut σ' α'} (hm : HAgree I J F Q m m') (hf : ∀ b b', Q b b' → HAgree J L F P (f b) (f' b')) :
    HAgree I L F P (m >>= f) (m' >>= f') := by
  intro s s' hs
  obtain ⟨h1, h2, h3⟩ := hm s s' hs
  show SameOutcome P (Mut.bind m f s).1 (Mut.bind m' f' s').1 ∧ ((∃ a, (Mut.bind m f s).1 = .ok a) → L (Mut.bind m f s).2 (Mut.bind m' f' s').2) ∧
    ((∃ e, (Mut.bind m f s).1 = .error e) → F (Mut.bind m f s).2 (Mut.bind m' f' s').2)
  unfold Mut.bind
  rcases hx : m s with ⟨e | a, s1⟩ <;> rcases hx' : m' s' with ⟨e' | a', s1'⟩ <;> rw [hx, hx'] at h1 h2 h3
  · refine ⟨h1, ?_, fun _ => h3 ⟨e, rfl⟩⟩
    rintro ⟨a, h⟩
    cases h
  · exact h1.elim
  · exact h1.elim
  · exact hf a a' h1 s1 s1' (h2 ⟨a, rfl⟩)

theorem hagree_get (hF : ∀ s s', I s s' → F s s') : HAgree I I F I (Mut.get : Mut σ σ) (Mut.get : Mut σ' σ') := fun s s' hs => ⟨hs, fun _ => hs, fun _ => hF s s' hs⟩
theorem hagree_lift (hF : ∀ s s', I s s' → F s s') {r : Res α} {r' : Res α'} (h : SameOutcome P r r') : HAgree I I F P (Mut.lift r) (Mut.lift r') :=
  fun s s' hs => ⟨h, fun _ => hs, fun _ => hF s s' hs⟩
theorem hagree_modify {f : σ → σ} {f' : σ' → σ'} (h : ∀ s s', I s s' → J (f s) (f' s')) : HAgree I J F (fun _ _ => True) (Mut.modify f) (Mut.modify f') :=
  fun s s' hs => ⟨trivial, fun _ => h s s' hs, fun ⟨e, he⟩ => by cases he⟩
theorem MAgree.toH {m : Mut σ α} {m' : Mut σ' α'} (h : MAgree I P m m') : HAgree I I I P m m' := fun s s' hs => ⟨(h s s' hs).2, fun _ => (h s s' hs).1, fun _ => (h s s' hs).1⟩
theorem HAgree.toM {m : Mut σ α} {m' : Mut σ' α'} (h : HAgree I I I P m m') : MAgree I P m m' := by
  intro s s' hs
  obtain ⟨h1, h2, h3⟩ := h s s' hs
  refine ⟨?_, h1⟩
  rcases hx : (m s).1 with e | a
  · exact h3 ⟨e, hx⟩
  · exact h2 ⟨a, hx⟩
end

section
variable {K T T' ρ ρ' : Type} [DecidableEq K]
variable [Zero T] [One T] [Add T] [Sub T] [Mul T] [Div T] [Neg T] [NatCast T]
  [IntCast T] [LT T] [DecidableLT T] [LE T] [DecidableLE T] [DecidableEq T] [MathFn T]
  [Zero T'] [One T'] [Add T'] [Sub T'] [Mul T'] [Div T'] [Neg T'] [NatCast T']
  [IntCast T'] [LT T'] [DecidableLT T'] [LE T'] [DecidableLE T'] [DecidableEq T'] [MathFn T']

theorem ready_layerForward (E : Engine ρ T) {x y : Tensor T} {l l1 : Layer T} {l' : Layer T'} {r r1 : ρ} (hl : SameLayer l l') (hx : Intact x) (h : Layer.forward E x (l, r) = (.ok y, l1, r1)) :
    PoolReady l1 := by
  rcases l with ⟨k, md⟩
  rcases l' with ⟨k', md'⟩
  rcases hl with ⟨hk, hm⟩
  dsimp only at hk hm
  unfold PoolReady
  cases k with
  | maxPool l =>
    cases k' <;> first | exact hk.elim | skip
    have e : l1 = ⟨.maxPool (MaxPool.forward x l).2, md⟩ := by
      have := congrArg (fun p => p.2.1) h
      exact this.symm
    have e1 : (MaxPool.forward x l).1 = .ok y := congrArg (fun p => p.1) h
    rw [e]
    dsimp only
    intro z hz
    rw [(poolForward_padding x l).2]
    unfold MaxPool.forward at hz e1
    split at e1
    · cases e1
    · next hr =>
      rw [if_neg hr] at hz
      have hz : some x = some z := hz
      cases hz
      have e2 : MaxPool.pool { l with input := some x } x = .ok y := e1
      exact pool_corner (l := { l with input := some x }) hx hk.2 e2
  | _ =>
    have := congrArg (fun p => p.2.1) h
    dsimp only at this
    rw [← this]
    exact trivial

theorem ready_forwardLayers (E : Engine ρ T) {ls : List (Layer T)} {ls' : List (Layer T')} (hl : List.Forall₂ SameLayer ls ls') :
    ∀ {x y : Tensor T} {r r1 : ρ} {ls1 : List (Layer T)}, (∀ l ∈ ls, IntactLayer l) → Intact x → forwardLayers E ls x r = (.ok y, ls1, r1) → ∀ l ∈ ls1, PoolReady l := by
  induction hl with
  | nil => intro x y r r1 ls1 _ _ h; cases h; intro l hl; cases hl
  | @cons l l' ls ls' h1 h2 ih =>
    intro x y r r1 ls1 hi hx h
    unfold forwardLayers at h
    have hg := (intact_layerForward E hx (l, r) (hi l (by simp))).2
    rcases hy : Layer.forward E x (l, r) with ⟨e | z, la, ra⟩
    · rw [hy] at h; cases h
    · rw [hy] at h hg
      dsimp only at h
      rcases hy' : forwardLayers E ls z ra with ⟨e | w, lb, rb⟩
      · rw [hy'] at h; cases h
      · rw [hy'] at h
        cases h
        intro a ha
        rcases List.mem_cons.1 ha with rfl | ha
        · exact ready_layerForward E h1 hx hy
        · exact ih (fun a ha => hi a (by simp [ha])) (hg z rfl) hy' a ha

theorem form_layerBackward (hz : SameZeros T T') {g : Tensor T} {g' : Tensor T'} (hg : SameForm g g') {l : Layer T} {l' : Layer T'} (hl : SameLayer l l') (hi : IntactLayer l)
    (hr : PoolReady l) : SameLayer (Layer.backward g l).2 (Layer.backward g' l').2 ∧ SameOutcome SameForm (Layer.backward g l).1 (Layer.backward g' l').1 := by
  rcases l with ⟨k, md⟩
  rcases l' with ⟨k', md'⟩
  rcases hl with ⟨hk, hm⟩
  dsimp only at hk hm
  subst hm
  cases k <;> cases k' <;> first | exact hk.elim | skip
  · have h := form_fcBackward hg _ _ hk
    exact ⟨⟨h.1, rfl⟩, h.2⟩
  · have h := form_convBackward hg _ _ hk
    exact ⟨⟨h.1, rfl⟩, h.2⟩
  · have h := form_flattenBackward hg _ _ hk
    exact ⟨⟨h.1, rfl⟩, h.2⟩
  · next l l' =>
    rcases l with ⟨ps, st, pd, ni, inp⟩
    rcases l' with ⟨ps', st', pd', ni', inp'⟩
    have h1 := hk.1.input
    unfold PoolReady at hr
    unfold IntactLayer at hi
    dsimp only at h1 hr hi
    cases inp <;> cases inp' <;> first | exact h1.elim | skip
    · exact ⟨⟨hk, rfl⟩, rfl⟩
    · next x x' => exact ⟨⟨hk, rfl⟩, form_unpool hk.1 h1 hg (hi x rfl).2 (hr x rfl)⟩
  · have h := form_bnBackward hz hg _ _ hk
    exact ⟨⟨h.1, rfl⟩, h.2⟩
  · have h := form_dropoutBackward md hg _ _ hk
    exact ⟨⟨h.1, rfl⟩, h.2⟩
  · have h := form_actLayerBackward hg _ _ hk
    exact ⟨⟨h.1, rfl⟩, h.2⟩

theorem form_backwardLayers (hz : SameZeros T T') {ls : List (Layer T)} {ls' : List (Layer T')} (hl : List.Forall₂ SameLayer ls ls') (hi : ∀ l ∈ ls, IntactLayer l)
    (hr : ∀ l ∈ ls, PoolReady l) {g : Tensor T} {g' : Tensor T'} (hg : SameForm g g') :
    SameOutcome SameForm (backwardLayers ls g).1 (backwardLayers ls' g').1 ∧ List.Forall₂ SameLayer (backwardLayers ls g).2 (backwardLayers ls' g').2 := by
  induction hl with
  | nil => exact ⟨hg, .nil⟩
  | @cons l l' ls ls' h1 h2 ih =>
    obtain ⟨h3, h4⟩ := ih (fun a ha => hi a (by simp [ha])) fun a ha => hr a (by simp [ha])
    unfold backwardLayers
    rcases hy : backwardLayers ls g with ⟨e | y, lb⟩ <;> rcases hy' : backwardLayers ls' g' with ⟨e' | y', lb'⟩ <;> rw [hy, hy'] at h3 h4
    · exact ⟨h3, .cons h1 h4⟩
    · exact h3.elim
    · exact h3.elim
    · have := form_layerBackward hz h3 h1 (hi l (by simp)) (hr l (by simp))
      exact ⟨this.2, .cons this.1 h4⟩

theorem form_layerUpdate (k0 k1 : K) : MAgree (fun (s : Layer T × Optimizer K T) (s' : Layer T' × Optimizer K T') => SameLayer s.1 s'.1 ∧ SameOptimizer s.2 s'.2) (fun _ _ => True)
    (Layer.updateWeights k0 k1) (Layer.updateWeights k0 k1) := by
  rintro ⟨⟨k, md⟩, o⟩ ⟨⟨k', md'⟩, o'⟩ ⟨⟨hk, hm⟩, ho⟩
  dsimp only at hk hm ho
  subst hm
  cases k <;> cases k' <;> first | exact hk.elim | skip
  · next l l' =>
    rcases l with ⟨w, b, i, wg, bg⟩
    rcases l' with ⟨w', b', i', wg', bg'⟩
    have h1 := hk.weightGradients
    have h2 := hk.biasGradients
    dsimp only at h1 h2
    cases wg <;> cases wg' <;> first | exact h1.elim | skip
    · exact ⟨⟨⟨hk, rfl⟩, ho⟩, rfl⟩
    · cases bg <;> cases bg' <;> first | exact h2.elim | skip
      · exact ⟨⟨⟨hk, rfl⟩, ho⟩, rfl⟩
      · have h := form_optimizePair k0 k1 ho hk.weights hk.biases h1 h2
        exact ⟨⟨⟨{ hk with weights := h.2.1, biases := h.2.2.1 }, rfl⟩, h.2.2.2⟩, h.1⟩
  · next l l' =>
    have h1 := hk.weightGradients
    have h2 := hk.biasGradients
    unfold Layer.updateWeights
    dsimp only
    rcases e1 : l.weightGradients with _ | wg <;> rcases e1' : l'.weightGradients with _ | wg' <;> rw [e1, e1'] at h1 <;> first | exact h1.elim | skip
    · exact ⟨⟨⟨hk, rfl⟩, ho⟩, rfl⟩
    · rcases e2 : l.biasGradients with _ | bg <;> rcases e2' : l'.biasGradients with _ | bg' <;> rw [e2, e2'] at h2 <;> first | exact h2.elim | skip
      · exact ⟨⟨⟨hk, rfl⟩, ho⟩, rfl⟩
      · have h := form_optimizePair k0 k1 ho hk.weights hk.biases h1 h2
        exact ⟨⟨⟨{ hk with weights := h.2.1, biases := h.2.2.1, weightGradients := h1, biasGradients := h2 }, rfl⟩, h.2.2.2⟩, h.1⟩
  · exact ⟨⟨⟨hk, rfl⟩, ho⟩, trivial⟩
  · exact ⟨⟨⟨hk, rfl⟩, ho⟩, trivial⟩
  · next l l' =>
    have h1 := hk.gammaGrad
    have h2 := hk.betaGrad
    unfold Layer.updateWeights
    dsimp only
    rcases e1 : l.gammaGrad with _ | wg <;> rcases e1' : l'.gammaGrad with _ | wg' <;> rw [e1, e1'] at h1 <;> first | exact h1.elim | skip
    · exact ⟨⟨⟨hk, rfl⟩, ho⟩, rfl⟩
    · rcases e2 : l.betaGrad with _ | bg <;> rcases e2' : l'.betaGrad with _ | bg' <;> rw [e2, e2'] at h2 <;> first | exact h2.elim | skip
      · exact ⟨⟨⟨hk, rfl⟩, ho⟩, rfl⟩
      · have h := form_optimizePair k0 k1 ho hk.gamma hk.beta h1 h2
        exact ⟨⟨⟨{ hk with gamma := h.2.1, beta := h.2.2.1, gammaGrad := h1, betaGrad := h2 }, rfl⟩, h.2.2.2⟩, h.1⟩
  · exact ⟨⟨⟨hk, rfl⟩, ho⟩, trivial⟩
  · exact ⟨⟨⟨hk, rfl⟩, ho⟩, trivial⟩

theorem form_updateLayers {ls : List (Layer T)} {ls' : List (Layer T')} (hl : List.Forall₂ SameLayer ls ls') :
    ∀ (i : Nat) {o : Optimizer (Nat × Bool) T} {o' : Optimizer (Nat × Bool) T'}, SameOptimizer o o' →
      SameOutcome (fun _ _ => True) (updateLayers i ls o).1 (updateLayers i ls' o').1 ∧ List.Forall₂ SameLayer (updateLayers i ls o).2.1 (updateLayers i ls' o').2.1 ∧
      SameOptimizer (updateLayers i ls o).2.2 (updateLayers i ls' o').2.2 := by
  induction hl with
  | nil => intro i o o' ho; exact ⟨trivial, .nil, ho⟩
  | @cons l l' ls ls' h1 h2 ih =>
    intro i o o' ho
    have hu := form_layerUpdate (i, false) (i, true) (l, o) (l', o') ⟨h1, ho⟩
    unfold updateLayers
    rcases hy : Layer.updateWeights (i, false) (i, true) (l, o) with ⟨e | ⟨⟨⟩⟩, la, oa⟩ <;>
      rcases hy' : Layer.updateWeights (i, false) (i, true) (l', o') with ⟨e' | ⟨⟨⟩⟩, la', oa'⟩ <;> rw [hy, hy'] at hu
    · exact ⟨hu.2, .cons hu.1.1 h2, hu.1.2⟩
    · exact hu.2.elim
    · exact hu.2.elim
    · have := ih (i + 1) hu.1.2
      exact ⟨this.1, .cons hu.1.1 this.2.1, this.2.2⟩

theorem form_updateWeights : MAgree SameNet (fun _ _ => True) (Net.updateWeights : Mut (Net ρ T) Unit) (Net.updateWeights : Mut (Net ρ' T') Unit) := by
  rintro ⟨ls, L, o, r⟩ ⟨ls', L', o', r'⟩ hn
  have h1 := hn.layers
  have h2 := hn.optimizer
  dsimp only at h1 h2
  cases h1 with
  | nil => exact ⟨hn, trivial⟩
  | @cons l l' ls ls' ha hb =>
    cases o <;> cases o' <;> first | exact h2.elim | skip
    · exact ⟨hn, rfl⟩
    · have := form_updateLayers (.cons ha hb) 0 h2
      exact ⟨⟨this.2.1, hn.loss, this.2.2⟩, this.1⟩

/-- Two trainings of models of the same make, one of which is intact. -/
structure SameSession (s : Session ρ T) (s' : Session ρ' T') : Prop where
  net : SameNet s.net s'.net
  total : SameForm s.total s'.total
  printed : List.Forall₂ SameForm s.printed s'.printed
  intact : IntactSession s

/-- The forward pass of the step has returned. -/
def ReadySession (s : Session ρ T) (s' : Session ρ' T') : Prop := SameSession s s' ∧ ∀ l ∈ s.net.layers, PoolReady l

theorem form_onPredict (E : Engine ρ T) (E' : Engine ρ' T') {x : Tensor T} {x' : Tensor T'} (hi : Intact x) (hx : SameForm x x') :
    HAgree SameSession ReadySession SameSession (fun y y' => SameForm y y' ∧ Intact y) (Session.onNet (predict E x)) (Session.onNet (predict E' x')) := by
  intro s s' hs
  have h1 := form_predict E E' hx s.net s'.net hs.net
  have h2 := intact_onNet (intact_predict E hi) s hs.intact
  have h3 : SameSession (Session.onNet (predict E x) s).2 (Session.onNet (predict E' x') s').2 := ⟨h1.1, hs.total, hs.printed, h2.1⟩
  refine ⟨?_, ?_, fun _ => h3⟩
  · exact (agree_and (Q' := fun _ => True) h1.2 h2.2 gives_true).mono fun _ _ h => ⟨h.1, h.2.1⟩
  · rintro ⟨y, hy⟩
    refine ⟨h3, ?_⟩
    have hy : (forwardLayers E s.net.layers x s.net.rng).1 = .ok y := hy
    rcases hf : forwardLayers E s.net.layers x s.net.rng with ⟨a, ls, r⟩
    rw [hf] at hy
    dsimp only at hy
    subst hy
    have := ready_forwardLayers E hs.net.layers hs.intact.net.layers hi hf
    show ∀ l ∈ (forwardLayers E s.net.layers x s.net.rng).2.1, PoolReady l
    rw [hf]
    exact this

theorem form_onBackward (hz : SameZeros T T') {g : Tensor T} {g' : Tensor T'} (hi : Intact g) (hg : SameForm g g') :
    HAgree (ReadySession : Session ρ T → Session ρ' T' → Prop) SameSession SameSession (fun _ _ => True) (Session.onNet (backward g)) (Session.onNet (backward g')) := by
  intro s s' hs
  have h1 := form_backwardLayers hz hs.1.net.layers hs.1.intact.net.layers hs.2 hg
  have h2 := intact_onNet (intact_backward hi) s hs.1.intact
  have h3 : SameSession (Session.onNet (backward g) s).2 (Session.onNet (backward g') s').2 := ⟨⟨h1.2, hs.1.net.loss, hs.1.net.optimizer⟩, hs.1.total, hs.1.printed, h2.1⟩
  exact ⟨h1.1.mono fun _ _ _ => trivial, fun _ => h3, fun _ => h3⟩

theorem agree_rd2 {α α' : Type} {P : α → α' → Prop} {l : List α} {l' : List α'} (h : List.Forall₂ P l l') (i : Int) : SameOutcome P (rd l i) (rd l' i) := agree_rd h i

theorem form_trainSample (hz : SameZeros T T') (E : Engine ρ T) (E' : Engine ρ' T') {x : Tensor T} {x' : Tensor T'} (hi : Intact x) (hx : SameForm x x')
    {ys : List (Tensor T)} {ys' : List (Tensor T')} (hy : List.Forall₂ SameForm ys ys') (i : Nat) :
    MAgree SameSession (fun _ _ => True) (trainSample E x ys i) (trainSample E' x' ys' i) := by
  have hF : ∀ s s', (ReadySession : Session ρ T → Session ρ' T' → Prop) s s' → SameSession s s' := fun _ _ h => h.1
  refine HAgree.toM ?_
  unfold trainSample
  refine hagree_bind (form_onPredict E E' hi hx) fun p p' hp => hagree_bind (hagree_get hF) fun s s' hs =>
    hagree_bind (Q := SameLoss) (hagree_lift hF ?_) fun L L' hL => hagree_bind (hagree_lift hF (agree_rd hy i)) fun t t' ht =>
    hagree_bind (Q := fun v v' => SameForm v v' ∧ Intact v) (hagree_lift hF ((agree_and (Q' := fun _ => True) (form_compute hz hL hp.1 ht) (intact_compute L p t) gives_true).mono fun _ _ h => ⟨h.1, h.2.1⟩)) fun v v' hv =>
    hagree_bind (Q := fun v v' => SameForm v v' ∧ Intact v) (hagree_lift hF ((agree_and (Q' := fun _ => True) (twin_addAssign (fun _ _ _ _ _ _ => trivial) hs.1.total hv.1)
      (intact_addAssign _ _ hs.1.intact.total) gives_true).mono fun _ _ h => ⟨h.1, h.2.1⟩)) fun tot tot' htot =>
    hagree_bind (J := ReadySession) (hagree_modify fun s s' hs => ⟨{ hs.1 with total := htot.1, intact := { hs.1.intact with total := htot.2 } }, hs.2⟩) fun _ _ _ =>
    hagree_bind (Q := fun v v' => SameForm v v' ∧ Intact v) (hagree_lift hF ((agree_and (Q' := fun _ => True) (form_gradient hz hL hp.1 ht) (intact_gradient L hp.2 t) gives_true).mono fun _ _ h => ⟨h.1, h.2.1⟩)) fun g g' hg =>
    hagree_bind (form_onBackward hz hg.2 hg.1) fun _ _ _ => MAgree.toH ?_
  · have h1 := hs.1.net.loss
    rcases e : s.net.loss with _ | L <;> rcases e' : s'.net.loss with _ | L' <;> rw [e, e'] at h1 <;> first | exact h1.elim | skip
    · rfl
    · exact h1
  · intro s s' hs
    have h1 := form_updateWeights s.net s'.net hs.net
    have h2 := intact_onNet intact_updateWeights s hs.intact
    exact ⟨⟨h1.1, hs.total, hs.printed, h2.1⟩, h1.2⟩

theorem form_trainSamples (hz : SameZeros T T') (E : Engine ρ T) (E' : Engine ρ' T') {ys : List (Tensor T)} {ys' : List (Tensor T')} (hy : List.Forall₂ SameForm ys ys')
    {xs : List (Tensor T)} {xs' : List (Tensor T')} (hx : List.Forall₂ SameForm xs xs') : (∀ x ∈ xs, Intact x) → ∀ (i : Nat),
    MAgree SameSession (fun _ _ => True) (trainSamples E ys i xs) (trainSamples E' ys' i xs') := by
  induction hx with
  | nil => intro _ i; exact magree_pure trivial
  | cons h1 h2 ih =>
    intro hi i
    unfold trainSamples
    exact magree_bind (form_trainSample hz E E' (hi _ (by simp)) h1 hy i) fun _ _ _ => ih (fun a ha => hi a (by simp [ha])) (i + 1)

theorem form_train (hz : SameZeros T T') (E : Engine ρ T) (E' : Engine ρ' T') {ys : List (Tensor T)} {ys' : List (Tensor T')} (hy : List.Forall₂ SameForm ys ys')
    {xs : List (Tensor T)} {xs' : List (Tensor T')} (hx : List.Forall₂ SameForm xs xs') (hi : ∀ x ∈ xs, Intact x) (epochs : Int) :
    MAgree SameSession (fun _ _ => True) (Net.train E xs ys epochs) (Net.train E' xs' ys' epochs) := by
  unfold Net.train
  refine magree_forN (fun _ => ?_) _
  unfold trainEpoch
  have hs : GoodShape (shapeOf [1]) := make_one
  rw [show Shape.make [1] = .ok (shapeOf [1]) from make_one]
  refine magree_bind (Q := fun s s' => s = shapeOf [1] ∧ s' = shapeOf [1]) (magree_lift ⟨rfl, rfl⟩) ?_
  rintro _ _ ⟨rfl, rfl⟩
  refine magree_bind (magree_modify fun s s' h => { h with total := twin_full _ trivial, intact := { h.intact with total := intact_full hs _ } }) fun _ _ _ =>
    magree_bind (form_trainSamples hz E E' hy hx hi 0) fun _ _ _ => magree_bind magree_get fun s s' hs =>
    magree_bind (Q := fun v v' => SameForm v v' ∧ Intact v) (magree_lift ((agree_and (Q' := fun _ => True) (form_divScalar hs.total ?_) (intact_divScalar hs.intact.total _) gives_true).mono fun _ _ h => ⟨h.1, h.2.1⟩))
      fun r r' hr => magree_modify fun s s' h => ⟨h.net, h.total, List.rel_append h.printed (.cons hr.1 .nil), h.intact.net, h.intact.total, ?_⟩
  swap
  · intro p hp
    rcases List.mem_append.1 hp with hp | hp
    · exact h.intact.printed p hp
    · exact List.mem_singleton.1 hp ▸ hr.2
  rw [hx.length_eq]
  exact hz.nat _

end

end SmartDNN
