import Verif.Spec.Store
import Verif.Proofs.Reshape
import Verif.Proofs.Loops

/-!
# Heap programs refine the functional store
-/

namespace SmartDNN
open Spec

section
variable {T : Type}

/-- The value of an object in a heap. -/
def valueOf (heap : Nat → Option (List T)) (o : Obj) : Value T := ⟨o.shape, o.ptr.bind heap⟩

/-- The functional store a state stands for. -/
def view (st : HState T) : List (Option (Value T)) := st.vars.map (Option.map (valueOf st.heap))

/-- Ownership invariant. -/
structure Owned (st : HState T) : Prop where
  live : ∀ (x : Nat) o a, st.vars[x]? = some (some o) → o.ptr = some a →
    ∃ d, st.heap a = some d ∧ d.length = o.shape.size
  inj : ∀ (x y : Nat) o o' a, st.vars[x]? = some (some o) → st.vars[y]? = some (some o') → o.ptr = some a →
    o'.ptr = some a → x = y
  own : ∀ a, st.heap a ≠ none → ∃ (x : Nat) (o : Obj), st.vars[x]? = some (some o) ∧ o.ptr = some a

/-- A slot that owns nothing. -/
def Vacant (st : HState T) (x : Nat) : Prop :=
  x < st.vars.length ∧ ∀ o, st.vars[x]? = some (some o) → o.ptr = none

theorem view_getElem? (st : HState T) (x : Nat) :
    (view st)[x]? = st.vars[x]?.map (Option.map (valueOf st.heap)) := by simp [view]

theorem owned_bounded {st : HState T} (h : Owned st) : ∃ bound, ∀ a, st.heap a ≠ none → a < bound := by
  obtain ⟨b, hb⟩ : ∃ b, ∀ o : Obj, some o ∈ st.vars → ∀ a, o.ptr = some a → a < b := by
    have : ∀ l : List (Option Obj), ∃ b, ∀ o : Obj, some o ∈ l → ∀ a, o.ptr = some a → a < b := by
      intro l
      induction l with
      | nil => exact ⟨0, by simp⟩
      | cons o l ih =>
        obtain ⟨b, hb⟩ := ih
        match o with
        | none => exact ⟨b, fun o ho a ha => hb o (by simpa using ho) a ha⟩
        | some ⟨s, none⟩ =>
          refine ⟨b, fun o ho a ha => ?_⟩
          rcases List.mem_cons.1 ho with h | h
          · simp only [Option.some.injEq] at h; subst h; simp at ha
          · exact hb o h a ha
        | some ⟨s, some p⟩ =>
          refine ⟨max b (p + 1), fun o ho a ha => ?_⟩
          rcases List.mem_cons.1 ho with h | h
          · simp only [Option.some.injEq] at h; subst h
            simp only [Option.some.injEq] at ha
            omega
          · have := hb o h a ha
            omega
    exact this st.vars
  refine ⟨b, fun a ha => ?_⟩
  obtain ⟨x, o, h1, h2⟩ := h.own a ha
  exact hb o (List.mem_of_getElem? h1) a h2

/-- Give an empty slot a fresh buffer. -/
theorem owned_revive {st : HState T} (h : Owned st) {x a : Nat} (hx : Vacant st x) (ha : st.heap a = none)
    (s : Shape) (d : List T) (hd : d.length = s.size) :
    Owned ((st.store a d).setObj x (some ⟨s, some a⟩)) ∧
      view ((st.store a d).setObj x (some ⟨s, some a⟩)) = (view st).set x (some ⟨s, some d⟩) := by
  have hne : ∀ (y : Nat) o b, st.vars[y]? = some (some o) → o.ptr = some b → b ≠ a := by
    rintro y o b h1 h2 rfl
    obtain ⟨d', h3, _⟩ := h.live y o b h1 h2
    rw [ha] at h3
    cases h3
  have get : ∀ (y : Nat) o, (st.vars.set x (some ⟨s, some a⟩))[y]? = some (some o) →
      (y = x ∧ o = ⟨s, some a⟩) ∨ (y ≠ x ∧ st.vars[y]? = some (some o)) := by
    intro y o hy
    by_cases hyx : y = x
    · subst hyx
      rw [List.getElem?_set_self hx.1] at hy
      simp only [Option.some.injEq] at hy
      exact Or.inl ⟨rfl, hy.symm⟩
    · rw [List.getElem?_set_ne (Ne.symm hyx)] at hy
      exact Or.inr ⟨hyx, hy⟩
  refine ⟨⟨?_, ?_, ?_⟩, ?_⟩
  · intro y o b h1 h2
    rcases get y o h1 with ⟨rfl, rfl⟩ | ⟨_, h1⟩
    · simp only [Option.some.injEq] at h2
      subst h2
      exact ⟨d, by simp [HState.setObj, HState.store], hd⟩
    · obtain ⟨d', h3, h4⟩ := h.live y o b h1 h2
      refine ⟨d', ?_, h4⟩
      show (if b = a then some d else st.heap b) = _
      rw [if_neg (hne y o b h1 h2), h3]
  · intro y z o o' b h1 h2 h3 h4
    rcases get y o h1 with ⟨rfl, rfl⟩ | ⟨_, k1⟩ <;> rcases get z o' h2 with ⟨rfl, rfl⟩ | ⟨_, k2⟩
    · rfl
    · simp only [Option.some.injEq] at h3
      exact absurd h3.symm (hne z o' b k2 h4)
    · simp only [Option.some.injEq] at h4
      exact absurd h4.symm (hne y o b k1 h3)
    · exact h.inj y z o o' b k1 k2 h3 h4
  · intro b hb
    by_cases hba : b = a
    · subst hba
      exact ⟨x, ⟨s, some b⟩, List.getElem?_set_self hx.1, rfl⟩
    · have hb' : st.heap b ≠ none := by
        intro hn
        apply hb
        show (if b = a then some d else st.heap b) = _
        rw [if_neg hba, hn]
      obtain ⟨y, o, h1, h2⟩ := h.own b hb'
      refine ⟨y, o, ?_, h2⟩
      have hyx : y ≠ x := by
        rintro rfl
        have := hx.2 o h1
        rw [this] at h2
        cases h2
      show (st.vars.set x _)[y]? = _
      rw [List.getElem?_set_ne (Ne.symm hyx), h1]
  · apply List.ext_getElem?
    intro y
    rw [view_getElem?]
    show ((st.vars.set x (some ⟨s, some a⟩))[y]?).map _ = _
    by_cases hyx : y = x
    · subst hyx
      rw [List.getElem?_set_self hx.1, List.getElem?_set_self (by simpa [view] using hx.1)]
      simp [valueOf, HState.setObj, HState.store]
    · rw [List.getElem?_set_ne (Ne.symm hyx), List.getElem?_set_ne (Ne.symm hyx), view_getElem?]
      cases hv : st.vars[y]? with
      | none => rfl
      | some o =>
        cases o with
        | none => rfl
        | some o =>
          simp only [Option.map_some, Option.some.injEq]
          unfold valueOf
          cases hp : o.ptr with
          | none => rfl
          | some b =>
            simp only [Option.bind_some, Value.mk.injEq, true_and]
            show (if b = a then some d else st.heap b) = _
            rw [if_neg (hne y o b hv hp)]

/-- End a lifetime. -/
theorem owned_destroy {st : HState T} (h : Owned st) {x : Nat} {o : Obj} (hx : st.vars[x]? = some (some o)) :
    Owned ((st.free o.ptr).setObj x none) ∧
      view ((st.free o.ptr).setObj x none) = (view st).set x none := by
  have hlt : x < st.vars.length := (List.getElem?_eq_some_iff.1 hx).1
  have heap : ∀ b, ((st.free o.ptr).setObj x none).heap b = if o.ptr = some b then none else st.heap b := by
    intro b
    show (st.free o.ptr).heap b = _
    cases hp : o.ptr with
    | none => rfl
    | some a =>
      show (if b = a then none else st.heap b) = _
      by_cases hba : b = a
      · rw [if_pos hba, if_pos (by rw [hba])]
      · rw [if_neg hba, if_neg (by intro he; exact hba (Option.some.inj he).symm)]
  have vars : ((st.free o.ptr).setObj x none).vars = st.vars.set x none := by
    cases hp : o.ptr <;> rfl
  have get : ∀ (y : Nat) o', (st.vars.set x none)[y]? = some (some o') → y ≠ x ∧ st.vars[y]? = some (some o') := by
    intro y o' hy
    by_cases hyx : y = x
    · subst hyx
      rw [List.getElem?_set_self hlt] at hy
      simp at hy
    · rw [List.getElem?_set_ne (Ne.symm hyx)] at hy
      exact ⟨hyx, hy⟩
  have hne : ∀ (y : Nat) o' b, y ≠ x → st.vars[y]? = some (some o') → o'.ptr = some b → o.ptr ≠ some b :=
    fun y o' b hyx h1 h2 h3 => hyx (h.inj y x o' o b h1 hx h2 h3)
  refine ⟨⟨?_, ?_, ?_⟩, ?_⟩
  · intro y o' b h1 h2
    rw [vars] at h1
    obtain ⟨hyx, h1⟩ := get y o' h1
    rw [heap, if_neg (hne y o' b hyx h1 h2)]
    exact h.live y o' b h1 h2
  · intro y z o1 o2 b h1 h2 h3 h4
    rw [vars] at h1 h2
    exact h.inj y z o1 o2 b (get y o1 h1).2 (get z o2 h2).2 h3 h4
  · intro b hb
    rw [heap] at hb
    by_cases ho : o.ptr = some b
    · rw [if_pos ho] at hb; exact absurd rfl hb
    · rw [if_neg ho] at hb
      obtain ⟨y, o', h1, h2⟩ := h.own b hb
      refine ⟨y, o', ?_, h2⟩
      have hyx : y ≠ x := by
        rintro rfl
        rw [hx, Option.some.injEq, Option.some.injEq] at h1
        subst h1
        exact ho h2
      rw [vars, List.getElem?_set_ne (Ne.symm hyx), h1]
  · apply List.ext_getElem?
    intro y
    rw [view_getElem?, vars]
    by_cases hyx : y = x
    · subst hyx
      rw [List.getElem?_set_self hlt, List.getElem?_set_self (by simpa [view] using hlt)]
      rfl
    · rw [List.getElem?_set_ne (Ne.symm hyx), List.getElem?_set_ne (Ne.symm hyx), view_getElem?]
      cases hv : st.vars[y]? with
      | none => rfl
      | some o' =>
        cases o' with
        | none => rfl
        | some o' =>
          simp only [Option.map_some, Option.some.injEq]
          unfold valueOf
          cases hp : o'.ptr with
          | none => rfl
          | some b =>
            simp only [Option.bind_some, Value.mk.injEq, true_and]
            rw [heap, if_neg (hne y o' b hyx hv hp)]

/-- Hand a buffer over to an empty slot, leaving a null pointer behind. -/
theorem owned_transfer {st : HState T} (h : Owned st) {x y : Nat} (hxy : x ≠ y) (hx : Vacant st x) {o : Obj}
    (hy : st.vars[y]? = some (some o)) (s : Shape) :
    Owned ((st.setObj y (some ⟨s, none⟩)).setObj x (some o)) ∧
      view ((st.setObj y (some ⟨s, none⟩)).setObj x (some o)) =
        ((view st).set y (some ⟨s, none⟩)).set x (some (valueOf st.heap o)) := by
  have hylt : y < st.vars.length := (List.getElem?_eq_some_iff.1 hy).1
  have hxlt := hx.1
  have getv : ∀ (z : Nat), ((st.vars.set y (some ⟨s, none⟩)).set x (some o))[z]? =
      if z = x then some (some o) else if z = y then some (some ⟨s, none⟩) else st.vars[z]? := by
    intro z
    by_cases hzx : z = x
    · subst hzx
      rw [List.getElem?_set_self (by simpa using hxlt), if_pos rfl]
    · rw [List.getElem?_set_ne (Ne.symm hzx), if_neg hzx]
      by_cases hzy : z = y
      · subst hzy
        rw [List.getElem?_set_self hylt, if_pos rfl]
      · rw [List.getElem?_set_ne (Ne.symm hzy), if_neg hzy]
  have get : ∀ (z : Nat) o' b, ((st.vars.set y (some ⟨s, none⟩)).set x (some o))[z]? = some (some o') →
      o'.ptr = some b → (z = x ∧ o' = o) ∨ (z ≠ x ∧ z ≠ y ∧ st.vars[z]? = some (some o')) := by
    intro z o' b hz hb
    rw [getv] at hz
    split at hz
    · rename_i hzx
      simp only [Option.some.injEq] at hz
      exact Or.inl ⟨hzx, hz.symm⟩
    · rename_i hzx
      split at hz
      · simp only [Option.some.injEq] at hz
        subst hz
        simp at hb
      · rename_i hzy
        exact Or.inr ⟨hzx, hzy, hz⟩
  refine ⟨⟨?_, ?_, ?_⟩, ?_⟩
  · intro z o' b h1 h2
    rcases get z o' b h1 h2 with ⟨rfl, rfl⟩ | ⟨_, _, h1⟩
    · exact h.live y o' b hy h2
    · exact h.live z o' b h1 h2
  · intro z w o1 o2 b h1 h2 h3 h4
    rcases get z o1 b h1 h3 with ⟨rfl, rfl⟩ | ⟨_, hzy, k1⟩ <;> rcases get w o2 b h2 h4 with ⟨rfl, rfl⟩ | ⟨_, hwy, k2⟩
    · rfl
    · exact absurd (h.inj y w o1 o2 b hy k2 h3 h4).symm hwy
    · exact absurd (h.inj z y o1 o2 b k1 hy h3 h4) hzy
    · exact h.inj z w o1 o2 b k1 k2 h3 h4
  · intro b hb
    obtain ⟨z, o', h1, h2⟩ := h.own b hb
    by_cases hzy : z = y
    · subst hzy
      rw [hy, Option.some.injEq, Option.some.injEq] at h1
      subst h1
      refine ⟨x, o, ?_, h2⟩
      show ((st.vars.set z _).set x _)[x]? = _
      rw [getv, if_pos rfl]
    · refine ⟨z, o', ?_, h2⟩
      show ((st.vars.set y _).set x _)[z]? = _
      have hzx : z ≠ x := by
        rintro rfl
        have := hx.2 o' h1
        rw [this] at h2
        cases h2
      rw [getv, if_neg hzx, if_neg hzy, h1]
  · apply List.ext_getElem?
    intro z
    rw [view_getElem?]
    show (((st.vars.set y (some ⟨s, none⟩)).set x (some o))[z]?).map _ = _
    rw [getv]
    by_cases hzx : z = x
    · subst hzx
      rw [if_pos rfl, List.getElem?_set_self (by simpa [view] using hxlt)]
      rfl
    · rw [if_neg hzx, List.getElem?_set_ne (Ne.symm hzx)]
      by_cases hzy : z = y
      · subst hzy
        rw [if_pos rfl, List.getElem?_set_self (by simpa [view] using hylt)]
        rfl
      · rw [if_neg hzy, List.getElem?_set_ne (Ne.symm hzy), view_getElem?]
        rfl

/-- Change the contents of a buffer. -/
theorem owned_write {st : HState T} (h : Owned st) {x a : Nat} {s : Shape}
    (hx : st.vars[x]? = some (some ⟨s, some a⟩)) (d : List T) (hd : d.length = s.size) :
    Owned (st.store a d) ∧ view (st.store a d) = (view st).set x (some ⟨s, some d⟩) := by
  have hlt : x < st.vars.length := (List.getElem?_eq_some_iff.1 hx).1
  refine ⟨⟨?_, fun y z o o' b h1 h2 h3 h4 => h.inj y z o o' b h1 h2 h3 h4, ?_⟩, ?_⟩
  · intro y o b h1 h2
    by_cases hb : b = a
    · subst hb
      have := h.inj y x o _ b h1 hx h2 rfl
      subst this
      have h1' : st.vars[y]? = some (some o) := h1
      rw [hx, Option.some.injEq, Option.some.injEq] at h1'
      subst h1'
      exact ⟨d, by simp [HState.store], hd⟩
    · obtain ⟨d', h3, h4⟩ := h.live y o b h1 h2
      refine ⟨d', ?_, h4⟩
      show (if b = a then some d else st.heap b) = _
      rw [if_neg hb, h3]
  · intro b hb
    by_cases hba : b = a
    · subst hba
      exact ⟨x, _, hx, rfl⟩
    · refine h.own b ?_
      intro hn
      apply hb
      show (if b = a then some d else st.heap b) = _
      rw [if_neg hba, hn]
  · apply List.ext_getElem?
    intro y
    rw [view_getElem?]
    show st.vars[y]?.map _ = _
    by_cases hyx : y = x
    · subst hyx
      rw [hx, List.getElem?_set_self (by simpa [view] using hlt)]
      simp [valueOf, HState.store]
    · rw [List.getElem?_set_ne (Ne.symm hyx), view_getElem?]
      cases hv : st.vars[y]? with
      | none => rfl
      | some o =>
        cases o with
        | none => rfl
        | some o =>
          simp only [Option.map_some, Option.some.injEq]
          unfold valueOf
          cases hp : o.ptr with
          | none => rfl
          | some b =>
            simp only [Option.bind_some, Value.mk.injEq, true_and]
            show (if b = a then some d else st.heap b) = _
            rw [if_neg (by rintro rfl; exact hyx (h.inj y x o _ b hv hx hp rfl))]

/-- Change a shape, keeping the size. -/
theorem owned_shape {st : HState T} (h : Owned st) {x : Nat} {o : Obj} (hx : st.vars[x]? = some (some o)) (s : Shape)
    (hs : s.size = o.shape.size) :
    Owned (st.setObj x (some ⟨s, o.ptr⟩)) ∧
      view (st.setObj x (some ⟨s, o.ptr⟩)) = (view st).set x (some ⟨s, o.ptr.bind st.heap⟩) := by
  have hlt : x < st.vars.length := (List.getElem?_eq_some_iff.1 hx).1
  have get : ∀ (y : Nat) o', (st.vars.set x (some ⟨s, o.ptr⟩))[y]? = some (some o') →
      ∃ o'', st.vars[y]? = some (some o'') ∧ o'.ptr = o''.ptr ∧ o'.shape.size = o''.shape.size := by
    intro y o' hy
    by_cases hyx : y = x
    · subst hyx
      rw [List.getElem?_set_self hlt] at hy
      simp only [Option.some.injEq] at hy
      exact ⟨o, hx, by rw [← hy], by rw [← hy]; exact hs⟩
    · rw [List.getElem?_set_ne (Ne.symm hyx)] at hy
      exact ⟨o', hy, rfl, rfl⟩
  refine ⟨⟨?_, ?_, ?_⟩, ?_⟩
  · intro y o' b h1 h2
    obtain ⟨o'', h3, h4, h5⟩ := get y o' h1
    rw [h5]
    exact h.live y o'' b h3 (h4 ▸ h2)
  · intro y z o1 o2 b h1 h2 h3 h4
    obtain ⟨o1', h5, h6, _⟩ := get y o1 h1
    obtain ⟨o2', h7, h8, _⟩ := get z o2 h2
    exact h.inj y z o1' o2' b h5 h7 (h6 ▸ h3) (h8 ▸ h4)
  · intro b hb
    obtain ⟨y, o', h1, h2⟩ := h.own b hb
    by_cases hyx : y = x
    · subst hyx
      rw [hx, Option.some.injEq, Option.some.injEq] at h1
      subst h1
      exact ⟨y, ⟨s, o.ptr⟩, List.getElem?_set_self hlt, h2⟩
    · refine ⟨y, o', ?_, h2⟩
      show (st.vars.set x _)[y]? = _
      rw [List.getElem?_set_ne (Ne.symm hyx), h1]
  · apply List.ext_getElem?
    intro y
    rw [view_getElem?]
    show ((st.vars.set x _)[y]?).map _ = _
    by_cases hyx : y = x
    · subst hyx
      rw [List.getElem?_set_self hlt, List.getElem?_set_self (by simpa [view] using hlt)]
      rfl
    · rw [List.getElem?_set_ne (Ne.symm hyx), List.getElem?_set_ne (Ne.symm hyx), view_getElem?]
      rfl

/-- A new, empty slot. -/
theorem owned_slot {st : HState T} (h : Owned st) :
    Owned { st with vars := st.vars ++ [none] } ∧ view { st with vars := st.vars ++ [none] } = view st ++ [none] := by
  have get : ∀ (y : Nat) o, (st.vars ++ [none])[y]? = some (some o) → st.vars[y]? = some (some o) := by
    intro y o hy
    by_cases hlt : y < st.vars.length
    · rwa [List.getElem?_append_left hlt] at hy
    · rw [List.getElem?_append_right (by omega)] at hy
      cases hk : y - st.vars.length with
      | zero => rw [hk] at hy; simp at hy
      | succ k => rw [hk] at hy; simp at hy
  refine ⟨⟨fun y o b h1 h2 => h.live y o b (get y o h1) h2,
    fun y z o o' b h1 h2 => h.inj y z o o' b (get y o h1) (get z o' h2), fun b hb => ?_⟩, by simp [view]⟩
  obtain ⟨y, o, h1, h2⟩ := h.own b hb
  refine ⟨y, o, ?_, h2⟩
  show (st.vars ++ [none])[y]? = _
  rw [List.getElem?_append_left (List.getElem?_eq_some_iff.1 h1).1, h1]

end
end SmartDNN
