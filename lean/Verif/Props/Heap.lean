import Verif.Proofs.Heap

/-!
# C21, C71: value semantics of tensors
-/

namespace SmartDNN
open Spec

section
variable {T : Type} [Zero T]

/-- The correspondence claimed of one statement. -/
def Refines (alloc : HState T → Nat) (s : Stmt T) (st : HState T) : Prop :=
  (st.step alloc s).1 = (storeStep s (view st)).1 ∧ Owned (st.step alloc s).2 ∧
    view (st.step alloc s).2 = (storeStep s (view st)).2

omit [Zero T] in
theorem obj_ok {st : HState T} {x : Nat} {o : Obj} (h : st.vars[x]? = some (some o)) : st.obj x = .ok o := by
  unfold HState.obj; rw [h]

omit [Zero T] in
theorem obj_ub {st : HState T} {x : Nat} (h : ∀ o, st.vars[x]? ≠ some (some o)) : st.obj x = .error .ub := by
  unfold HState.obj
  split
  · rename_i o ho
    exact absurd ho (h o)
  · rfl

theorem view_none {st : HState T} {x : Nat} (h : ∀ o, st.vars[x]? ≠ some (some o)) :
    (view st)[x]? = none ∨ (view st)[x]? = some none := by
  rw [view_getElem?]
  cases hv : st.vars[x]? with
  | none => exact Or.inl rfl
  | some o =>
    cases o with
    | none => exact Or.inr rfl
    | some o => exact absurd hv (h o)

omit [Zero T] in
theorem view_some {st : HState T} {x : Nat} {o : Obj} (h : st.vars[x]? = some (some o)) :
    (view st)[x]? = some (some ⟨o.shape, o.ptr.bind st.heap⟩) := by
  rw [view_getElem?, h]; rfl

omit [Zero T] in
theorem store_store (st : HState T) (a : Nat) (d d' : List T) : (st.store a d).store a d' = st.store a d' := by
  unfold HState.store
  simp only [HState.mk.injEq, and_true]
  funext b
  split <;> rfl

theorem construct_refines {alloc : HState T → Nat} (hA : Allocator alloc) {st : HState T} (h : Owned st) (t : Tensor T)
    (ht : t.data.length = t.shape.size) :
    Owned (st.construct alloc t) ∧ view (st.construct alloc t) = view st ++ [some (Value.of t)] := by
  obtain ⟨h1, h2⟩ := owned_slot h
  have hv : Vacant { st with vars := st.vars ++ [none] } st.vars.length := by
    refine ⟨by simp, fun o ho => ?_⟩
    simp at ho
  obtain ⟨h3, h4⟩ := owned_revive h1 hv (hA st (owned_bounded h)) t.shape t.data ht
  have e : ((HState.store { st with vars := st.vars ++ [none] } (alloc st) t.data).setObj st.vars.length
      (some ⟨t.shape, some (alloc st)⟩)) = st.construct alloc t := by
    simp [HState.construct, HState.store, HState.setObj, HState.push]
  rw [e] at h3 h4
  refine ⟨h3, ?_⟩
  rw [h4, h2]
  have : st.vars.length = (view st).length := by simp [view]
  rw [this]
  simp [Value.of]

/-- A live variable with its elements. -/
theorem live_data {st : HState T} (h : Owned st) {x a : Nat} {s : Shape} (hx : st.vars[x]? = some (some ⟨s, some a⟩)) :
    ∃ d, st.heap a = some d ∧ d.length = s.size ∧ (view st)[x]? = some (some ⟨s, some d⟩) := by
  obtain ⟨d, h1, h2⟩ := h.live x _ a hx rfl
  refine ⟨d, h1, h2, ?_⟩
  rw [view_some hx]
  simp [h1]

theorem step_refines {alloc : HState T → Nat} (hA : Allocator alloc) {st : HState T} (h : Owned st) (s : Stmt T) :
    Refines alloc s st := by
  have hfresh := hA st (owned_bounded h)
  cases s with
  | zeros s =>
    obtain ⟨h1, h2⟩ := construct_refines hA h (Tensor.zeros s) (by simp [Tensor.zeros])
    exact ⟨rfl, h1, h2⟩
  | full s v =>
    obtain ⟨h1, h2⟩ := construct_refines hA h (Tensor.full s v) (by simp [Tensor.full])
    exact ⟨rfl, h1, h2⟩
  | fromList s values =>
    unfold Refines HState.step storeStep
    simp only
    cases hf : Tensor.fromList s values with
    | error e => exact ⟨rfl, h, rfl⟩
    | ok t =>
      have ht : t.data.length = t.shape.size := by
        unfold Tensor.fromList at hf
        split at hf
        · simp only [Except.ok.injEq] at hf
          subst hf
          simp only [List.length_append, List.length_replicate]
          omega
        · simp at hf
      obtain ⟨h1, h2⟩ := construct_refines hA h t ht
      exact ⟨rfl, h1, h2⟩
  | copy x =>
    unfold Refines HState.step storeStep
    simp only
    by_cases hx : ∃ o, st.vars[x]? = some (some o)
    · obtain ⟨⟨s, p⟩, hx⟩ := hx
      rw [obj_ok hx]
      simp only [Except.bind_ok']
      cases p with
      | none =>
        rw [view_some hx]
        exact ⟨rfl, h, rfl⟩
      | some a =>
        obtain ⟨d, h1, h2, h3⟩ := live_data h hx
        rw [h3]
        have hne : a ≠ alloc st := by rintro rfl; rw [h1] at hfresh; cases hfresh
        have hcp : (st.store (alloc st) (List.replicate s.size 0)).copyN (some a) s.size = .ok d := by
          unfold HState.copyN HState.deref
          have : (st.store (alloc st) (List.replicate s.size 0)).heap a = some d := by
            show (if a = alloc st then _ else st.heap a) = _
            rw [if_neg hne, h1]
          simp only [this, Except.bind_ok']
          rw [if_pos (by omega), List.take_of_length_le (by omega)]
        rw [hcp]
        simp only [Except.bind_ok', Except.pure_eq', store_store]
        obtain ⟨k1, k2⟩ := construct_refines hA h ⟨s, d⟩ h2
        exact ⟨trivial, k1, k2⟩
    · push Not at hx
      rw [obj_ub hx]
      rcases view_none hx with hv | hv <;> rw [hv] <;> exact ⟨rfl, h, rfl⟩
  | move x =>
    unfold Refines HState.step storeStep
    simp only
    by_cases hx : ∃ o, st.vars[x]? = some (some o)
    · obtain ⟨o, hx⟩ := hx
      have hlt : x < st.vars.length := (List.getElem?_eq_some_iff.1 hx).1
      have h1 : Shape.make [1] = .ok (shapeOf [1]) := make_one
      rw [obj_ok hx, view_some hx]
      simp only [Except.bind_ok', h1, Except.pure_eq']
      obtain ⟨k1, k2⟩ := owned_slot h
      have hv : Vacant { st with vars := st.vars ++ [none] } st.vars.length := by
        refine ⟨by simp, fun o ho => ?_⟩
        simp at ho
      have hx' : (st.vars ++ [none])[x]? = some (some o) := by rw [List.getElem?_append_left hlt, hx]
      obtain ⟨k3, k4⟩ := owned_transfer k1 (by omega : st.vars.length ≠ x) hv hx' (shapeOf [1])
      have hfr : st.heap (alloc (st.push o)) = none := hA (st.push o) (show ∃ bound, ∀ a, st.heap a ≠ none → a < bound from owned_bounded h)
      have hvac : Vacant ((HState.setObj { st with vars := st.vars ++ [none] } x (some ⟨shapeOf [1], none⟩)).setObj
          st.vars.length (some o)) x := by
        refine ⟨by simp [HState.setObj]; omega, fun o' ho' => ?_⟩
        simp only [HState.setObj] at ho'
        rw [List.getElem?_set_ne (by omega), List.getElem?_set_self (by simp; omega)] at ho'
        simp only [Option.some.injEq] at ho'
        rw [← ho']
      obtain ⟨k5, k6⟩ := owned_revive k3 hvac hfr (shapeOf [1]) [(0 : T)] (by simp)
      have e : (HState.store ((HState.setObj { st with vars := st.vars ++ [none] } x
            (some ⟨shapeOf [1], none⟩)).setObj st.vars.length (some o)) (alloc (st.push o)) [(0 : T)]).setObj x
            (some ⟨shapeOf [1], some (alloc (st.push o))⟩) =
          ((st.push o).store (alloc (st.push o)) (List.replicate (shapeOf [1]).size 0)).setObj x
            (some ⟨shapeOf [1], some (alloc (st.push o))⟩) := by
        simp only [HState.store, HState.setObj, HState.push, HState.mk.injEq]
        refine ⟨rfl, ?_⟩
        apply List.ext_getElem?
        intro z
        by_cases hzx : z = x
        · subst hzx
          rw [List.getElem?_set_self (by simp; omega), List.getElem?_set_self (by simp; omega)]
        · rw [List.getElem?_set_ne (Ne.symm hzx), List.getElem?_set_ne (Ne.symm hzx)]
          by_cases hzl : z = st.vars.length
          · subst hzl
            rw [List.getElem?_set_self (by simp)]
            simp
          · rw [List.getElem?_set_ne (Ne.symm hzl), List.getElem?_set_ne (Ne.symm hzx)]
            by_cases hz : z < st.vars.length
            · rw [List.getElem?_append_left hz, List.getElem?_append_left hz]
            · rw [List.getElem?_eq_none (by simp; omega), List.getElem?_eq_none (by simp; omega)]
      rw [e] at k5 k6
      refine ⟨trivial, k5, ?_⟩
      rw [k6, k4, k2]
      have hl : st.vars.length = (view st).length := by simp [view]
      rw [hl] at hlt ⊢
      rw [List.set_append_left _ _ hlt]
      have hl' : (view st).length = ((view st).set x (some ⟨shapeOf [1], none⟩)).length := by simp
      rw [hl', List.set_append_right _ _ (by simp), List.set_append_left _ _ (by simpa using hlt)]
      simp only [List.length_set, Nat.sub_self, List.set_cons_zero, List.set_set]
      rfl
    · push Not at hx
      rw [obj_ub hx]
      rcases view_none hx with hv | hv <;> rw [hv] <;> exact ⟨rfl, h, rfl⟩
  | copyAssign x y =>
    unfold Refines HState.step storeStep
    simp only
    by_cases hx : ∃ o, st.vars[x]? = some (some o)
    swap
    · push Not at hx
      rw [obj_ub hx]
      rcases view_none hx with hv | hv <;> rw [hv] <;> exact ⟨rfl, h, rfl⟩
    obtain ⟨ox, hx⟩ := hx
    by_cases hy : ∃ o, st.vars[y]? = some (some o)
    swap
    · push Not at hy
      rw [obj_ok hx, obj_ub hy, view_some hx]
      rcases view_none hy with hv | hv <;> rw [hv] <;> exact ⟨rfl, h, rfl⟩
    obtain ⟨⟨s, p⟩, hy⟩ := hy
    rw [obj_ok hx, obj_ok hy, view_some hx]
    simp only [Except.bind_ok']
    by_cases hxy : x = y
    · simp only [if_pos hxy]
      rw [view_some hy]
      exact ⟨rfl, h, rfl⟩
    simp only [if_neg hxy]
    have hlt : x < st.vars.length := (List.getElem?_eq_some_iff.1 hx).1
    have hobj : (((st.store (alloc st) (List.replicate s.size 0)).free ox.ptr).setObj x
        (some ⟨s, some (alloc st)⟩)).obj y = .ok ⟨s, p⟩ := by
      apply obj_ok
      have : ((st.store (alloc st) (List.replicate s.size 0)).free ox.ptr).vars = st.vars := by
        cases ox.ptr <;> rfl
      simp only [HState.setObj, this]
      rw [List.getElem?_set_ne hxy, hy]
    rw [hobj]
    simp only [Except.bind_ok']
    cases p with
    | none =>
      rw [view_some hy]
      exact ⟨rfl, h, rfl⟩
    | some a =>
      obtain ⟨d, h1, h2, h3⟩ := live_data h hy
      rw [h3]
      have hne : a ≠ alloc st := by rintro rfl; rw [h1] at hfresh; cases hfresh
      have hox : ox.ptr ≠ some a := fun hp => hxy (h.inj x y ox _ a hx hy hp rfl)
      have hoa : ox.ptr ≠ some (alloc st) := by
        intro hp
        obtain ⟨d', h4, _⟩ := h.live x ox _ hx hp
        rw [hfresh] at h4
        cases h4
      have hcp : (((st.store (alloc st) (List.replicate s.size 0)).free ox.ptr).setObj x
          (some ⟨s, some (alloc st)⟩)).copyN (some a) s.size = .ok d := by
        unfold HState.copyN HState.deref
        have : (((st.store (alloc st) (List.replicate s.size 0)).free ox.ptr).setObj x
            (some ⟨s, some (alloc st)⟩)).heap a = some d := by
          show ((st.store (alloc st) (List.replicate s.size 0)).free ox.ptr).heap a = _
          cases hp : ox.ptr with
          | none =>
            show (if a = alloc st then _ else st.heap a) = _
            rw [if_neg hne, h1]
          | some b =>
            show (if a = b then _ else if a = alloc st then _ else st.heap a) = _
            rw [if_neg (by rintro rfl; exact hox hp), if_neg hne, h1]
        simp only [this, Except.bind_ok']
        rw [if_pos (by omega), List.take_of_length_le (by omega)]
      rw [hcp]
      simp only [Except.bind_ok', Except.pure_eq']
      obtain ⟨k1, k2⟩ := owned_destroy h hx
      have hvac : Vacant ((st.free ox.ptr).setObj x none) x := by
        have : (st.free ox.ptr).vars = st.vars := by cases ox.ptr <;> rfl
        refine ⟨by simpa [HState.setObj, this] using hlt, fun o ho => ?_⟩
        simp only [HState.setObj, this] at ho
        rw [List.getElem?_set_self hlt] at ho
        simp at ho
      have hfr : ((st.free ox.ptr).setObj x none).heap (alloc st) = none := by
        show (st.free ox.ptr).heap (alloc st) = none
        cases hp : ox.ptr with
        | none => exact hfresh
        | some b =>
          show (if alloc st = b then none else st.heap (alloc st)) = none
          split
          · rfl
          · exact hfresh
      obtain ⟨k3, k4⟩ := owned_revive k1 hvac hfr s d h2
      have e : (((st.free ox.ptr).setObj x none).store (alloc st) d).setObj x (some ⟨s, some (alloc st)⟩) =
          (((st.store (alloc st) (List.replicate s.size 0)).free ox.ptr).setObj x
            (some ⟨s, some (alloc st)⟩)).store (alloc st) d := by
        cases hp : ox.ptr with
        | none =>
          simp only [HState.store, HState.setObj, HState.free, HState.mk.injEq, List.set_set, and_true]
          funext b
          split <;> rfl
        | some b =>
          simp only [HState.store, HState.setObj, HState.free, HState.mk.injEq, List.set_set, and_true]
          funext c
          split
          · rfl
          · split <;> rfl
      rw [e] at k3 k4
      refine ⟨trivial, k3, ?_⟩
      rw [k4, k2, List.set_set]
      rfl
  | moveAssign x y =>
    unfold Refines HState.step storeStep
    simp only
    by_cases hx : ∃ o, st.vars[x]? = some (some o)
    swap
    · push Not at hx
      rw [obj_ub hx]
      rcases view_none hx with hv | hv <;> rw [hv] <;> exact ⟨rfl, h, rfl⟩
    obtain ⟨ox, hx⟩ := hx
    by_cases hy : ∃ o, st.vars[y]? = some (some o)
    swap
    · push Not at hy
      rw [obj_ok hx, obj_ub hy, view_some hx]
      rcases view_none hy with hv | hv <;> rw [hv] <;> exact ⟨rfl, h, rfl⟩
    obtain ⟨oy, hy⟩ := hy
    rw [obj_ok hx, obj_ok hy, view_some hx, view_some hy]
    simp only [Except.bind_ok']
    by_cases hxy : x = y
    · simp only [if_pos hxy]
      exact ⟨rfl, h, rfl⟩
    simp only [if_neg hxy]
    have hlt : x < st.vars.length := (List.getElem?_eq_some_iff.1 hx).1
    obtain ⟨k1, k2⟩ := owned_destroy h hx
    have hvars : (st.free ox.ptr).vars = st.vars := by cases ox.ptr <;> rfl
    have hvac : Vacant ((st.free ox.ptr).setObj x none) x := by
      refine ⟨by simpa [HState.setObj, hvars] using hlt, fun o ho => ?_⟩
      simp only [HState.setObj, hvars] at ho
      rw [List.getElem?_set_self hlt] at ho
      simp at ho
    have hy' : ((st.free ox.ptr).setObj x none).vars[y]? = some (some oy) := by
      simp only [HState.setObj, hvars]
      rw [List.getElem?_set_ne hxy, hy]
    obtain ⟨k3, k4⟩ := owned_transfer k1 hxy hvac hy' oy.shape.movedFrom
    have e : (((st.free ox.ptr).setObj x none).setObj y (some ⟨oy.shape.movedFrom, none⟩)).setObj x (some oy) =
        (((st.setObj y (some ⟨oy.shape.movedFrom, none⟩)).setObj x (some ⟨oy.shape, oy.ptr⟩)).free ox.ptr) := by
      have hset : ((st.vars.set x none).set y (some ⟨oy.shape.movedFrom, none⟩)).set x (some oy) =
          (st.vars.set y (some ⟨oy.shape.movedFrom, none⟩)).set x (some oy) := by
        rw [List.set_comm _ _ hxy, List.set_set]
      cases hp : ox.ptr with
      | none => simp only [HState.setObj, HState.free, hset]
      | some b => simp only [HState.setObj, HState.free, hset]
    rw [e] at k3 k4
    refine ⟨rfl, k3, ?_⟩
    change view (((st.setObj y (some ⟨oy.shape.movedFrom, none⟩)).setObj x (some ⟨oy.shape, oy.ptr⟩)).free ox.ptr) =
      ((view st).set y (some ⟨oy.shape.movedFrom, none⟩)).set x (some ⟨oy.shape, oy.ptr.bind st.heap⟩)
    rw [k4, k2, List.set_comm _ _ hxy, List.set_set]
    congr 2
    unfold valueOf
    congr 1
    cases hp : oy.ptr with
    | none => rfl
    | some b =>
      have hb : ox.ptr ≠ some b := fun hq => hxy (h.inj x y ox oy b hx hy hq hp)
      show (st.free ox.ptr).heap b = st.heap b
      cases hq : ox.ptr with
      | none => rfl
      | some c =>
        show (if b = c then none else st.heap b) = _
        rw [if_neg (by rintro rfl; exact hb hq)]
  | set x i v =>
    unfold Refines HState.step storeStep
    simp only
    by_cases hx : ∃ o, st.vars[x]? = some (some o)
    swap
    · push Not at hx
      rw [obj_ub hx]
      rcases view_none hx with hv | hv <;> rw [hv] <;> exact ⟨rfl, h, rfl⟩
    obtain ⟨⟨s, p⟩, hx⟩ := hx
    rw [obj_ok hx]
    simp only [Except.bind_ok']
    cases p with
    | none => rw [view_some hx]; exact ⟨rfl, h, rfl⟩
    | some a =>
      obtain ⟨d, h1, h2, h3⟩ := live_data h hx
      rw [h3]
      unfold HState.deref
      simp only [h1, Except.bind_ok', Tensor.set, Option.getD_some]
      cases hw : wr d (i : Int) v with
      | error e => exact ⟨rfl, h, rfl⟩
      | ok d' =>
        have hl : d'.length = s.size := by
          unfold wr at hw
          split at hw
          · simp only [Except.ok.injEq] at hw
            rw [← hw]; simpa using h2
          · simp at hw
        obtain ⟨k1, k2⟩ := owned_write h hx d' hl
        exact ⟨rfl, k1, k2⟩
  | setAt x indices v =>
    unfold Refines HState.step storeStep
    simp only
    by_cases hx : ∃ o, st.vars[x]? = some (some o)
    swap
    · push Not at hx
      rw [obj_ub hx]
      rcases view_none hx with hv | hv <;> rw [hv] <;> exact ⟨rfl, h, rfl⟩
    obtain ⟨⟨s, p⟩, hx⟩ := hx
    rw [obj_ok hx, view_some hx]
    simp only [Except.bind_ok']
    cases hk : computeFlatIndex s indices with
    | error e => exact ⟨rfl, h, rfl⟩
    | ok k =>
      simp only [Except.bind_ok']
      cases p with
      | none => exact ⟨rfl, h, rfl⟩
      | some a =>
        obtain ⟨d, h1, h2, h3⟩ := live_data h hx
        unfold HState.deref
        simp only [h1, Except.bind_ok', Option.bind_some, Tensor.setAt, Option.getD_some, hk]
        cases hw : wr d (k : Int) v with
        | error e => exact ⟨rfl, h, rfl⟩
        | ok d' =>
          have hl : d'.length = s.size := by
            unfold wr at hw
            split at hw
            · simp only [Except.ok.injEq] at hw
              rw [← hw]; simpa using h2
            · simp at hw
          obtain ⟨k1, k2⟩ := owned_write h hx d' hl
          exact ⟨rfl, k1, k2⟩
  | update x i y j op =>
    unfold Refines HState.step storeStep
    simp only
    by_cases hx : ∃ o, st.vars[x]? = some (some o)
    swap
    · push Not at hx
      rw [obj_ub hx]
      rcases view_none hx with hv | hv <;> rw [hv] <;> exact ⟨rfl, h, rfl⟩
    obtain ⟨⟨s, p⟩, hx⟩ := hx
    by_cases hy : ∃ o, st.vars[y]? = some (some o)
    swap
    · push Not at hy
      rw [obj_ok hx, obj_ub hy, view_some hx]
      rcases view_none hy with hv | hv <;> rw [hv]
      · cases hb : p.bind st.heap <;> exact ⟨rfl, h, rfl⟩
      · cases hb : p.bind st.heap <;> exact ⟨rfl, h, rfl⟩
    obtain ⟨⟨s', p'⟩, hy⟩ := hy
    rw [obj_ok hx, obj_ok hy]
    simp only [Except.bind_ok']
    cases p with
    | none => rw [view_some hx]; exact ⟨rfl, h, rfl⟩
    | some a =>
      obtain ⟨d, h1, h2, h3⟩ := live_data h hx
      rw [h3]
      unfold HState.deref
      simp only [h1, Except.bind_ok']
      cases p' with
      | none => rw [view_some hy]; exact ⟨rfl, h, rfl⟩
      | some a' =>
        obtain ⟨d', h1', h2', h3'⟩ := live_data h hy
        rw [h3']
        simp only [h1', Except.bind_ok', Tensor.get, Tensor.set, Option.getD_some]
        cases hr : rd d (i : Int) with
        | error e => exact ⟨rfl, h, rfl⟩
        | ok u =>
          simp only [Except.bind_ok']
          cases hr' : rd d' (j : Int) with
          | error e => exact ⟨rfl, h, rfl⟩
          | ok w =>
            simp only [Except.bind_ok']
            cases hw : wr d (i : Int) (op u w) with
            | error e => exact ⟨rfl, h, rfl⟩
            | ok d'' =>
              have hl : d''.length = s.size := by
                unfold wr at hw
                split at hw
                · simp only [Except.ok.injEq] at hw
                  rw [← hw]; simpa using h2
                · simp at hw
              obtain ⟨k1, k2⟩ := owned_write h hx d'' hl
              exact ⟨rfl, k1, k2⟩
  | fill x v =>
    unfold Refines HState.step storeStep
    simp only
    by_cases hx : ∃ o, st.vars[x]? = some (some o)
    swap
    · push Not at hx
      rw [obj_ub hx]
      rcases view_none hx with hv | hv <;> rw [hv] <;> exact ⟨rfl, h, rfl⟩
    obtain ⟨⟨s, p⟩, hx⟩ := hx
    rw [obj_ok hx]
    simp only [Except.bind_ok']
    cases p with
    | none => rw [view_some hx]; exact ⟨rfl, h, rfl⟩
    | some a =>
      obtain ⟨d, h1, h2, h3⟩ := live_data h hx
      rw [h3]
      unfold HState.deref
      simp only [h1, Except.bind_ok', Option.getD_some]
      rw [if_pos (by omega), List.drop_of_length_le (by omega), List.append_nil]
      obtain ⟨k1, k2⟩ := owned_write h hx (List.replicate s.size v) (by simp)
      exact ⟨rfl, k1, k2⟩
  | reshape x dims =>
    unfold Refines HState.step storeStep
    simp only
    by_cases hx : ∃ o, st.vars[x]? = some (some o)
    swap
    · push Not at hx
      rw [obj_ub hx]
      rcases view_none hx with hv | hv <;> rw [hv] <;> exact ⟨rfl, h, rfl⟩
    obtain ⟨o, hx⟩ := hx
    rw [obj_ok hx, view_some hx]
    simp only [Except.bind_ok', Except.pure_eq']
    have hs : (Shape.reshapeM dims o.shape).2.size = o.shape.size := by
      rw [reshapeM_eq]
      split
      · rfl
      · split
        · rfl
        · split <;> rfl
    obtain ⟨k1, k2⟩ := owned_shape h hx (Shape.reshapeM dims o.shape).2 hs
    exact ⟨trivial, k1, k2⟩
  | destroy x =>
    unfold Refines HState.step storeStep
    simp only
    by_cases hx : ∃ o, st.vars[x]? = some (some o)
    swap
    · push Not at hx
      rw [obj_ub hx]
      rcases view_none hx with hv | hv <;> rw [hv] <;> exact ⟨rfl, h, rfl⟩
    obtain ⟨o, hx⟩ := hx
    rw [obj_ok hx, view_some hx]
    obtain ⟨k1, k2⟩ := owned_destroy h hx
    exact ⟨rfl, k1, k2⟩

theorem run_refines {alloc : HState T → Nat} (hA : Allocator alloc) : ∀ (prog : List (Stmt T)) {st : HState T},
    Owned st → (∃ e, st.run alloc prog = .error e ∧ storeRun prog (view st) = .error e) ∨
      ∃ st', st.run alloc prog = .ok st' ∧ storeRun prog (view st) = .ok (view st') ∧ Owned st'
  | [], st, h => Or.inr ⟨st, rfl, rfl, h⟩
  | s :: ss, st, h => by
    obtain ⟨h1, h2, h3⟩ := step_refines hA h s
    rw [HState.run, storeRun]
    cases hs : st.step alloc s with
    | mk out st' =>
      cases hf : storeStep s (view st) with
      | mk out' f' =>
        rw [hs] at h1 h2 h3
        rw [hf] at h1 h3
        simp only at h1 h2 h3
        subst h1 h3
        cases out with
        | ok u => exact run_refines hA ss h2
        | error e =>
          simp only
          split
          · exact run_refines hA ss h2
          · exact Or.inl ⟨e, rfl, rfl⟩

omit [Zero T] in
theorem owned_empty : Owned (HState.empty : HState T) :=
  ⟨fun x o a h => by simp [HState.empty] at h, fun x y o o' a h => by simp [HState.empty] at h,
    fun a h => by simp [HState.empty] at h⟩

omit [Zero T] in
theorem observe_view (st : HState T) (x : Nat) : observe st x = (view st)[x]?.getD none := by
  unfold observe
  rw [view_getElem?]
  cases hv : st.vars[x]? with
  | none => rfl
  | some o => cases o <;> rfl

/-- **C21.**  For every allocator and every program over any number of tensor variables (constructions, copies,
copy and move assignments, move constructions, element writes, fills, reshapes, ends of lifetimes, exceptions
caught), the program is defined exactly when it is on the functional store, and then every variable has exactly
the value the functional store gives it. -/
theorem C21_value_semantics {alloc : HState T → Nat} (hA : Allocator alloc) (prog : List (Stmt T)) :
    (∃ e, HState.empty.run alloc prog = .error e ∧ storeRun prog ([] : List (Option (Value T))) = .error e) ∨
      ∃ st f, HState.empty.run alloc prog = .ok st ∧ storeRun prog [] = .ok f ∧ ∀ x, observe st x = f[x]?.getD none := by
  rcases run_refines hA prog owned_empty with h | ⟨st, h1, h2, _⟩
  · exact Or.inl h
  · exact Or.inr ⟨st, view st, h1, h2, observe_view st⟩

/-- **C21 (memory).**  After every program each buffer on the heap belongs to exactly one live variable: nothing is
shared, leaked or freed too early. -/
theorem C21_ownership {alloc : HState T → Nat} (hA : Allocator alloc) (prog : List (Stmt T)) {st : HState T}
    (h : HState.empty.run alloc prog = .ok st) : UniquelyOwned st := by
  rcases run_refines hA prog owned_empty with ⟨e, h1, _⟩ | ⟨st', h1, _, hO⟩
  · rw [h1] at h; cases h
  · rw [h1, Except.ok.injEq] at h
    subst h
    intro a
    constructor
    · intro ha
      obtain ⟨x, o, h2, h3⟩ := hO.own a ha
      exact ⟨x, ⟨o, h2, h3⟩, fun y ⟨o', h4, h5⟩ => hO.inj y x o' o a h4 h2 h5 h3⟩
    · rintro ⟨x, ⟨o, h2, h3⟩, _⟩
      obtain ⟨d, h4, _⟩ := hO.live x o a h2 h3
      rw [h4]
      simp

/-! ### What the functional store says -/

/-- The statement names variable `x` as the object it changes. -/
def Spec.changes (s : Stmt T) (x : Nat) : Prop := match s with
  | .zeros _ | .full _ _ | .fromList _ _ | .copy _ => False
  | .move y => x = y
  | .copyAssign d _ => x = d
  | .moveAssign d y => x = d ∨ x = y
  | .set d _ _ | .setAt d _ _ | .update d _ _ _ _ | .fill d _ | .reshape d _ | .destroy d => x = d

omit [Zero T] in
theorem bind_eq_ok' {α β : Type} {r : Res α} {f : α → Res β} {b : β} (h : r >>= f = .ok b) :
    ∃ a, r = .ok a ∧ f a = .ok b := by
  cases r with
  | ok a => exact ⟨a, rfl, h⟩
  | error e => cases h

omit [Zero T] in
theorem append_keep {α : Type} {st l : List α} {x : Nat} (hx : x < st.length) : (st ++ l)[x]? = st[x]? :=
  List.getElem?_append_left hx

/-- A statement leaves every variable alone that it does not name as the one to change. -/
theorem store_isolation (s : Stmt T) (st : List (Option (Value T))) (x : Nat) (hx : x < st.length)
    (h : ¬ changes s x) : (storeStep s st).2[x]? = st[x]? := by
  have key : ∀ r : Res (Res Unit × List (Option (Value T))), (∀ out, r = .ok out → out.2[x]? = st[x]?) →
      (match r with | .ok out => out | .error e => (.error e, st)).2[x]? = st[x]? := by
    intro r hr
    cases r with
    | ok out => exact hr out rfl
    | error e => rfl
  unfold storeStep
  apply key
  intro out ho
  cases s <;> simp only [changes] at h ho
  case zeros s => cases ho; exact append_keep hx
  case full s v => cases ho; exact append_keep hx
  case fromList s values =>
    obtain ⟨t, _, h2⟩ := bind_eq_ok' ho
    cases h2; exact append_keep hx
  case copy y =>
    obtain ⟨t, _, h2⟩ := bind_eq_ok' ho
    cases h2; exact append_keep hx
  case move y =>
    obtain ⟨t, _, h2⟩ := bind_eq_ok' ho
    cases h2
    show (_ ++ _)[x]? = _
    rw [append_keep (by simpa using hx), List.getElem?_set_ne (Ne.symm h)]
  case copyAssign d y =>
    obtain ⟨v, _, h2⟩ := bind_eq_ok' ho
    obtain ⟨w, _, h3⟩ := bind_eq_ok' h2
    split at h3
    · cases h3; rfl
    · obtain ⟨t, _, h4⟩ := bind_eq_ok' h3
      cases h4
      exact List.getElem?_set_ne (Ne.symm h)
  case moveAssign d y =>
    rw [not_or] at h
    obtain ⟨v, _, h2⟩ := bind_eq_ok' ho
    obtain ⟨w, _, h3⟩ := bind_eq_ok' h2
    split at h3
    · cases h3; rfl
    · cases h3
      exact (List.getElem?_set_ne (Ne.symm h.1)).trans (List.getElem?_set_ne (Ne.symm h.2))
  case set d i v =>
    obtain ⟨t, _, h2⟩ := bind_eq_ok' ho
    obtain ⟨t', _, h3⟩ := bind_eq_ok' h2
    cases h3; exact List.getElem?_set_ne (Ne.symm h)
  case setAt d i v =>
    obtain ⟨w, _, h2⟩ := bind_eq_ok' ho
    obtain ⟨k, _, h3⟩ := bind_eq_ok' h2
    obtain ⟨t, _, h4⟩ := bind_eq_ok' h3
    obtain ⟨t', _, h5⟩ := bind_eq_ok' h4
    cases h5; exact List.getElem?_set_ne (Ne.symm h)
  case update d i y j op =>
    obtain ⟨w, _, h2⟩ := bind_eq_ok' ho
    obtain ⟨k, _, h3⟩ := bind_eq_ok' h2
    obtain ⟨t, _, h4⟩ := bind_eq_ok' h3
    obtain ⟨t', _, h5⟩ := bind_eq_ok' h4
    obtain ⟨t'', _, h6⟩ := bind_eq_ok' h5
    cases h6; exact List.getElem?_set_ne (Ne.symm h)
  case fill d v =>
    obtain ⟨t, _, h2⟩ := bind_eq_ok' ho
    cases h2; exact List.getElem?_set_ne (Ne.symm h)
  case reshape d dims =>
    obtain ⟨t, _, h2⟩ := bind_eq_ok' ho
    cases h2; exact List.getElem?_set_ne (Ne.symm h)
  case destroy d =>
    obtain ⟨t, _, h2⟩ := bind_eq_ok' ho
    cases h2; exact List.getElem?_set_ne (Ne.symm h)

/-- Copy- and move-assigning a variable to itself changes nothing. -/
theorem store_self_assignment (x : Nat) (st : List (Option (Value T))) (v : Value T) (hx : st[x]? = some (some v)) :
    storeStep (.copyAssign x x) st = (.ok (), st) ∧ storeStep (.moveAssign x x) st = (.ok (), st) := by
  unfold storeStep
  simp only [hx, Except.bind_ok', if_true]
  exact ⟨rfl, rfl⟩

/-- A copy and an assigned variable get the source's value, and the source keeps it. -/
theorem store_copies (x y : Nat) (hxy : x ≠ y) (st : List (Option (Value T))) (t : Tensor T) (v : Value T)
    (hy : st[y]? = some (some (Value.of t))) (hx : st[x]? = some (some v)) :
    (storeStep (.copy y) st).1 = .ok () ∧ (storeStep (.copy y) st).2 = st ++ [some (Value.of t)] ∧
    (storeStep (.copyAssign x y) st).1 = .ok () ∧
    (storeStep (.copyAssign x y) st).2[x]? = some (some (Value.of t)) ∧
    (storeStep (.copyAssign x y) st).2[y]? = some (some (Value.of t)) := by
  have hlt : x < st.length := (List.getElem?_eq_some_iff.1 hx).1
  unfold storeStep
  simp only [hx, hy, Value.of, Except.bind_ok', if_neg hxy]
  refine ⟨rfl, rfl, rfl, List.getElem?_set_self hlt, ?_⟩
  exact (List.getElem?_set_ne hxy).trans hy

/-- A move construction hands the value over and leaves the one-element zero tensor of shape (1) behind. -/
theorem store_moved_from (y : Nat) (st : List (Option (Value T))) (v : Value T) (hy : st[y]? = some (some v)) :
    (storeStep (.move y) st).1 = .ok () ∧
    (storeStep (.move y) st).2[st.length]? = some (some v) ∧
    (storeStep (.move y) st).2[y]? = some (some (Value.of (ofFn [1] (fun _ => 0)))) := by
  have hlt : y < st.length := (List.getElem?_eq_some_iff.1 hy).1
  unfold storeStep
  simp only [hy, Except.bind_ok']
  refine ⟨rfl, ?_, ?_⟩
  · show (st.set y _ ++ [some v])[st.length]? = _
    rw [List.getElem?_append_right (by simp)]
    simp
  · show (st.set y _ ++ [some v])[y]? = _
    rw [List.getElem?_append_left (by simpa using hlt), List.getElem?_set_self hlt]

/-- One statement after any program, seen through the functional store. -/
theorem step_after {alloc : HState T → Nat} (hA : Allocator alloc) (prog : List (Stmt T)) {st : HState T}
    (h : HState.empty.run alloc prog = .ok st) (s : Stmt T) :
    (st.step alloc s).1 = (storeStep s (view st)).1 ∧
      (∀ x, observe st x = (view st)[x]?.getD none) ∧
      ∀ x, observe (st.step alloc s).2 x = (storeStep s (view st)).2[x]?.getD none := by
  rcases run_refines hA prog owned_empty with ⟨e, h1, _⟩ | ⟨st', h1, _, hO⟩
  · rw [h1] at h; cases h
  · rw [h1, Except.ok.injEq] at h
    subst h
    obtain ⟨k1, _, k3⟩ := step_refines hA hO s
    exact ⟨k1, observe_view _, fun x => by rw [observe_view, k3]⟩

omit [Zero T] in
theorem observe_some {st : HState T} {x : Nat} {v : Value T} (h : observe st x = some v) :
    (view st)[x]? = some (some v) := by
  rw [observe_view] at h
  cases hv : (view st)[x]? with
  | none => rw [hv] at h; cases h
  | some w =>
    rw [hv] at h
    exact congrArg some h

omit [Zero T] in
theorem length_view (st : HState T) : (view st).length = st.vars.length := by simp [view]

/-- **C21 (isolation).**  After any program, a further statement leaves every variable alone that it does not name
as the one to change. -/
theorem C21_isolation {alloc : HState T → Nat} (hA : Allocator alloc) (prog : List (Stmt T)) {st : HState T}
    (h : HState.empty.run alloc prog = .ok st) (s : Stmt T) (x : Nat) (hx : x < st.vars.length)
    (hs : ¬ changes s x) : observe (st.step alloc s).2 x = observe st x := by
  obtain ⟨_, h2, h3⟩ := step_after hA prog h s
  rw [h3, h2, store_isolation s _ x (by rw [length_view]; exact hx) hs]

/-- **C21 (self-assignment).**  After any program, copy- and move-assigning a live variable to itself succeeds and
changes no variable. -/
theorem C21_self_assignment {alloc : HState T → Nat} (hA : Allocator alloc) (prog : List (Stmt T)) {st : HState T}
    (h : HState.empty.run alloc prog = .ok st) (x : Nat) (v : Value T) (hx : observe st x = some v) :
    ((st.step alloc (.copyAssign x x)).1 = .ok () ∧ ∀ y, observe (st.step alloc (.copyAssign x x)).2 y = observe st y) ∧
    ((st.step alloc (.moveAssign x x)).1 = .ok () ∧
      ∀ y, observe (st.step alloc (.moveAssign x x)).2 y = observe st y) := by
  obtain ⟨k1, k2⟩ := store_self_assignment x (view st) v (observe_some hx)
  obtain ⟨h1, h2, h3⟩ := step_after hA prog h (.copyAssign x x)
  obtain ⟨g1, g2, g3⟩ := step_after hA prog h (.moveAssign x x)
  exact ⟨⟨by rw [h1, k1], fun y => by rw [h3, k1, h2]⟩, ⟨by rw [g1, k2], fun y => by rw [g3, k2, g2]⟩⟩

/-- **C21 (copies).**  After any program, a copy of a tensor and a variable assigned from it get its value, and the
source keeps it. -/
theorem C21_copies {alloc : HState T → Nat} (hA : Allocator alloc) (prog : List (Stmt T)) {st : HState T}
    (h : HState.empty.run alloc prog = .ok st) (x y : Nat) (hxy : x ≠ y) (t : Tensor T) (v : Value T)
    (hy : observe st y = some (Value.of t)) (hx : observe st x = some v) :
    ((st.step alloc (.copy y)).1 = .ok () ∧ observe (st.step alloc (.copy y)).2 st.vars.length = some (Value.of t) ∧
      observe (st.step alloc (.copy y)).2 y = some (Value.of t)) ∧
    ((st.step alloc (.copyAssign x y)).1 = .ok () ∧ observe (st.step alloc (.copyAssign x y)).2 x = some (Value.of t) ∧
      observe (st.step alloc (.copyAssign x y)).2 y = some (Value.of t)) := by
  obtain ⟨k1, k2, k3, k4, k5⟩ := store_copies x y hxy (view st) t v (observe_some hy) (observe_some hx)
  obtain ⟨h1, h2, h3⟩ := step_after hA prog h (.copy y)
  obtain ⟨g1, g2, g3⟩ := step_after hA prog h (.copyAssign x y)
  have hylt : y < (view st).length := (List.getElem?_eq_some_iff.1 (observe_some hy)).1
  refine ⟨⟨by rw [h1, k1], ?_, ?_⟩, by rw [g1, k3], by rw [g3, k4]; rfl, by rw [g3, k5]; rfl⟩
  · rw [h3, k2, ← length_view, List.getElem?_append_right (Nat.le_refl _)]
    simp
  · rw [h3, k2, List.getElem?_append_left hylt, observe_some hy]
    rfl

/-- **C21 (moved-from).**  After any program, a move construction hands the value over and leaves the one-element
zero tensor of shape (1) behind. -/
theorem C21_moved_from {alloc : HState T → Nat} (hA : Allocator alloc) (prog : List (Stmt T)) {st : HState T}
    (h : HState.empty.run alloc prog = .ok st) (y : Nat) (v : Value T) (hy : observe st y = some v) :
    (st.step alloc (.move y)).1 = .ok () ∧
    observe (st.step alloc (.move y)).2 st.vars.length = some v ∧
    observe (st.step alloc (.move y)).2 y = some (Value.of (ofFn [1] (fun _ => 0))) := by
  obtain ⟨k1, k2, k3⟩ := store_moved_from y (view st) v (observe_some hy)
  obtain ⟨h1, h2, h3⟩ := step_after hA prog h (.move y)
  refine ⟨by rw [h1, k1], ?_, by rw [h3, k3]; rfl⟩
  rw [h3, ← length_view, k2]
  rfl

omit [Zero T] in
/-- A least-free-address allocator exists, so the hypothesis of the theorems is met. -/
theorem Spec.allocator_exists : ∃ alloc : HState T → Nat, Allocator alloc := by
  classical
  refine ⟨fun st => if h : ∃ a, st.heap a = none then h.choose else 0, fun st ⟨b, hb⟩ => ?_⟩
  have h : ∃ a, st.heap a = none := by
    refine ⟨b, ?_⟩
    by_contra hne
    exact absurd (hb b hne) (by omega)
  simp only [dif_pos h]
  exact h.choose_spec

/-- A history with a copy, a write to the original and a move: the copy keeps the old element. -/
example : storeRun [Stmt.full (shapeOf [2]) (3 : ℤ), .copy 0, .set 0 1 7, .move 0, .copyAssign 0 1] [] =
    .ok [some ⟨shapeOf [2], some [3, 3]⟩, some ⟨shapeOf [2], some [3, 3]⟩, some ⟨shapeOf [2], some [3, 7]⟩] := rfl

/-! ### Move assignment -/

/-- The functional store after a move assignment. -/
theorem store_move_assign (x y : Nat) (hxy : x ≠ y) (st : List (Option (Value T))) (v w : Value T)
    (hx : st[x]? = some (some w)) (hy : st[y]? = some (some v)) :
    ∃ st', storeStep (.moveAssign x y) st = (.ok (), st') ∧ st'[x]? = some (some v) ∧
      st'[y]? = some (some ⟨v.shape.movedFrom, none⟩) ∧ v.shape.movedFrom.size = v.shape.size ∧
      (storeStep (.copy y) st').1 = .error .ub ∧ (storeStep (.copyAssign x y) st').1 = .error .ub ∧
      (∀ u, (storeStep (.fill y u) st').1 = .error .ub) ∧ ∀ i u, (storeStep (.set y i u) st').1 = .error .ub := by
  have hylt : y < st.length := (List.getElem?_eq_some_iff.1 hy).1
  have hxlt : x < st.length := (List.getElem?_eq_some_iff.1 hx).1
  have e1 : ((st.set y (some ⟨v.shape.movedFrom, none⟩)).set x (some v))[y]? =
      some (some ⟨v.shape.movedFrom, none⟩) := by
    rw [List.getElem?_set_ne hxy, List.getElem?_set_self hylt]
  have e2 : ((st.set y (some ⟨v.shape.movedFrom, none⟩)).set x (some v))[x]? = some (some v) := by
    rw [List.getElem?_set_self (by simpa using hxlt)]
  refine ⟨(st.set y (some ⟨v.shape.movedFrom, none⟩)).set x (some v), ?_, e2, e1, rfl, ?_, ?_, ?_, ?_⟩
  · unfold storeStep
    simp only [hx, hy, Except.bind_ok', if_neg hxy]
    rfl
  · unfold storeStep; simp only [e1]; rfl
  · unfold storeStep; simp only [e1, e2, Except.bind_ok', if_neg hxy]; rfl
  · intro u; unfold storeStep; simp only [e1]; rfl
  · intro i u; unfold storeStep; simp only [e1]; rfl

/-- **C71 (refuted).**  After `b = std::move(a)` (two different variables), whatever the history before, `a` has a
null buffer while its shape still reports the old element count: copying it, assigning from it, filling it and
every element access through `operator[]` is undefined behaviour. -/
theorem C71_move_assign_refuted {alloc : HState T → Nat} (hA : Allocator alloc) (prog : List (Stmt T)) {st : HState T}
    (h : HState.empty.run alloc prog = .ok st) (x y : Nat) (hxy : x ≠ y) (v w : Value T)
    (hx : observe st x = some w) (hy : observe st y = some v) :
    ∃ st', st.step alloc (.moveAssign x y) = (.ok (), st') ∧
      observe st' x = some v ∧ observe st' y = some ⟨v.shape.movedFrom, none⟩ ∧ v.shape.movedFrom.size = v.shape.size ∧
      (st'.step alloc (.copy y)).1 = .error .ub ∧ (st'.step alloc (.copyAssign x y)).1 = .error .ub ∧
      (∀ u, (st'.step alloc (.fill y u)).1 = .error .ub) ∧ ∀ i u, (st'.step alloc (.set y i u)).1 = .error .ub := by
  rcases run_refines hA prog owned_empty with ⟨e, h1, _⟩ | ⟨st', h1, _, hO⟩
  · rw [h1] at h; cases h
  · rw [h1, Except.ok.injEq] at h
    subst h
    obtain ⟨f, k0, kx, k1, k2, k3, k4, k5, k6⟩ := store_move_assign x y hxy (view st') v w (observe_some hx) (observe_some hy)
    obtain ⟨r1, r2, r3⟩ := step_refines hA hO (.moveAssign x y)
    rw [k0] at r1 r3
    simp only at r1 r3
    have hr := fun s => (step_refines hA r2 s).1
    rw [r3] at hr
    refine ⟨(st'.step alloc (.moveAssign x y)).2, Prod.ext r1 rfl, ?_, ?_, k2, ?_, ?_, ?_, ?_⟩
    · rw [observe_view, r3, kx]; rfl
    · rw [observe_view, r3, k1]; rfl
    · rw [hr, k3]
    · rw [hr, k4]
    · intro u; rw [hr, k5]
    · intro i u; rw [hr, k6]

/-- **C71 (refuted, whole program).**  `Tensor a(s); Tensor b(s'); b = std::move(a); Tensor c(a);` is undefined for
all shapes and under every allocator. -/
theorem C71_program_refuted {alloc : HState T → Nat} (hA : Allocator alloc) (s s' : Shape) :
    HState.empty.run alloc [Stmt.zeros s, .zeros s', .moveAssign 1 0, .copy 0] = .error .ub := by
  have hs : storeRun [Stmt.zeros s, .zeros s', .moveAssign 1 0, .copy 0] ([] : List (Option (Value T))) =
      .error .ub := rfl
  rcases C21_value_semantics hA [Stmt.zeros s, .zeros s', .moveAssign 1 0, .copy 0] with ⟨e, h1, h2⟩ | ⟨st, f, _, h2, _⟩
  · rw [hs] at h2
    injection h2 with h2
    rw [h1, ← h2]
  · rw [hs] at h2
    cases h2

/-- **C71 (partial).**  After any program every variable in its lifetime, moved from or not, can be assigned a tensor
and then has that tensor's value, and can be destroyed.  Missing from the full claim: reading or copying it first,
which is undefined. -/
theorem C71_reassign_partial {alloc : HState T → Nat} (hA : Allocator alloc) (prog : List (Stmt T)) {st : HState T}
    (h : HState.empty.run alloc prog = .ok st) (y z : Nat) (hyz : y ≠ z) (v : Value T) (t : Tensor T)
    (hy : observe st y = some v) (hz : observe st z = some (Value.of t)) :
    (st.step alloc (.copyAssign y z)).1 = .ok () ∧
      observe (st.step alloc (.copyAssign y z)).2 y = some (Value.of t) ∧
      (st.step alloc (.destroy y)).1 = .ok () ∧ observe (st.step alloc (.destroy y)).2 y = none := by
  obtain ⟨_, k2⟩ := C21_copies hA prog h y z hyz t v hz hy
  obtain ⟨h1, _, h3⟩ := step_after hA prog h (.destroy y)
  have hlt : y < (view st).length := (List.getElem?_eq_some_iff.1 (observe_some hy)).1
  have hd : storeStep (.destroy y) (view st) = (.ok (), (view st).set y none) := by
    unfold storeStep
    simp only [observe_some hy]
    rfl
  refine ⟨k2.1, k2.2.1, by rw [h1, hd], ?_⟩
  rw [h3, hd, List.getElem?_set_self hlt]
  rfl

example : storeRun [Stmt.full (shapeOf [2]) (3 : ℤ), .zeros (shapeOf [3]), .moveAssign 1 0, .copy 0] [] =
    .error .ub := rfl

end
end SmartDNN
