import Verif.Proofs.Print
import Verif.Props.Train

/-!
# Printed tensors and the console output of `train` (C79)
-/

namespace SmartDNN
open Spec

section
variable {T : Type}

/-! ### Specification -/

/-- The elements of an array in row-major order, formatted. -/
def Spec.shown (fmt : T → String) (ds : List Nat) (f : List Nat → T) : List String := (indices ds).map (fun i => fmt (f i))

/-- The formatter writes at least no comma and no closing bracket, as stream inserters of numbers do. -/
def Spec.Plain (fmt : T → String) : Prop := ∀ x, ∀ c ∈ (fmt x).toList, c ≠ ',' ∧ c ≠ ']'

/-! ### `toDataString` -/

/-- **C79.** `toDataString` lists all elements in row-major order, separated by `", "`, in brackets. -/
theorem C79_data (fmt : T → String) (ds : List Nat) (f : List Nat → T) :
    (ofFn ds f).toDataString fmt = .ok ("[" ++ String.intercalate ", " (shown fmt ds f) ++ "]") := by
  unfold Tensor.toDataString
  rw [printElements_ok fmt _ _ _ (by simp), Except.bind_ok', Except.pure_eq']
  rw [List.take_of_length_le (by simp)]
  simp only [ofFn_data, List.map_map, shown, Function.comp_def]

theorem shown_ne (fmt : T → String) {ds : List Nat} (hd : 0 < ds.prod) (f : List Nat → T) :
    (shown fmt ds f).map String.toList ≠ [] := by
  intro h
  have := congrArg List.length h
  simp only [shown, List.length_map, length_indices, List.length_nil] at this
  omega

/-- What `toDataString` prints determines every element as far as the formatter does. -/
theorem C79_data_determines {fmt : T → String} (hf : Plain fmt) {a b : List Nat} (ha : 0 < a.prod) (hb : 0 < b.prod) (f g : List Nat → T)
    (h : (ofFn a f).toDataString fmt = (ofFn b g).toDataString fmt) : shown fmt a f = shown fmt b g := by
  rw [C79_data, C79_data] at h
  have h1 := congrArg String.toList (Except.ok.inj h)
  simp only [String.toList_append, intercalate_toList] at h1
  have h2 := intercalate_inj ((shown fmt a f).map String.toList) ((shown fmt b g).map String.toList) [] []
    (by simp only [shown, List.map_map, List.mem_map]; rintro _ ⟨i, -, rfl⟩; exact hf _)
    (by simp only [shown, List.map_map, List.mem_map]; rintro _ ⟨i, -, rfl⟩; exact hf _)
    (shown_ne fmt ha f) (shown_ne fmt hb g)
    (by simpa using h1)
  exact List.map_injective_iff.2 (fun _ _ => String.toList_injective) h2.1

/-- It does not determine the shape: every reshaped tensor prints the same. -/
theorem C79_data_shape_lost (fmt : T → String) {ds es : List Nat} (he : Dims es) (hp : ds.prod = es.prod) (f : List Nat → T) :
    ∃ t, (ofFn ds f).reshape (ints es) = .ok t ∧ t.toDataString fmt = (ofFn ds f).toDataString fmt := by
  refine ⟨_, reshaped_eq _ (ofFn_shape ds f) he hp.symm, ?_⟩
  rw [ofFn_data, reinterpret_ofFn hp.symm, C79_data, C79_data]
  have : (ofFn es fun idx => f (reindex es ds idx)).data = (ofFn ds f).data := by rw [← reinterpret_ofFn hp.symm]; rfl
  have h2 := congrArg (List.map fmt) this
  simp only [ofFn_data, List.map_map] at h2
  have h3 : shown fmt es (fun idx => f (reindex es ds idx)) = shown fmt ds f := h2
  rw [h3]

/-! ### `toDetailedString` -/

/-- `toDetailedString` prints the element type, the shape and the first ten elements, and `", ..."` exactly if there are more. -/
theorem C79_detailed (fmt : T → String) (name : String) (ds : List Nat) (f : List Nat → T) :
    (ofFn ds f).toDetailedString fmt name = .ok ("Tensor:\nTensorData<" ++ name ++ ", CPUDevice>:\nShape: " ++ (shapeOf ds).toString ++
      "\nData: [" ++ String.intercalate ", " ((shown fmt ds f).take 10) ++ (if 10 < ds.prod then ", ..." else "") ++ "]\n") := by
  unfold Tensor.toDetailedString Tensor.dataToString
  rw [printElements_ok fmt _ _ _ (by simp), Except.bind_ok', Except.pure_eq', Except.bind_ok', Except.pure_eq']
  have : ((ofFn ds f).data.take (min (ofFn ds f).shape.size 10)).map fmt = (shown fmt ds f).take 10 := by
    rw [List.map_take, Nat.min_comm, ← List.take_take, List.take_of_length_le (i := (ofFn ds f).shape.size) (by simp)]
    simp only [ofFn_data, List.map_map, shown, Function.comp_def]
  rw [this]
  congr 1
  simp only [ofFn_shape, shapeOf_size]
  by_cases h : 10 < ds.prod <;> (simp only [h, if_true, if_false]; apply String.toList_injective; simp [String.toList_append])

/-- Two tensors of at most ten elements that print the same details have the same shape, and the same elements as far as the formatter
tells them apart. -/
theorem C79_detailed_determines {fmt : T → String} (hf : Plain fmt) (name : String) {a b : List Nat} (ha : Dims a) (hb : Dims b)
    (f g : List Nat → T) (hs : a.prod ≤ 10)
    (h : (ofFn a f).toDetailedString fmt name = (ofFn b g).toDetailedString fmt name) : a = b ∧ shown fmt a f = shown fmt b g := by
  rw [C79_detailed, C79_detailed] at h
  have h1 := congrArg String.toList (Except.ok.inj h)
  simp only [String.toList_append, toString_printed ha.ne, toString_printed hb.ne, intercalate_toList, List.append_assoc,
    List.append_cancel_left_eq, List.cons_append, List.cons.injEq, true_and] at h1
  obtain ⟨rfl, h2⟩ := printed_append_inj ha.ne hb.ne h1
  refine ⟨rfl, ?_⟩
  rw [List.append_cancel_left_eq, if_neg (by omega)] at h2
  have full : ∀ f : List Nat → T, (shown fmt a f).take 10 = shown fmt a f := fun f =>
    List.take_of_length_le (by simp only [shown, List.length_map, length_indices]; omega)
  rw [full, full] at h2
  have h3 := intercalate_inj ((shown fmt a f).map String.toList) ((shown fmt a g).map String.toList) ['\n'] ['\n']
    (by simp only [shown, List.map_map, List.mem_map]; rintro _ ⟨i, -, rfl⟩; exact hf _)
    (by simp only [shown, List.map_map, List.mem_map]; rintro _ ⟨i, -, rfl⟩; exact hf _)
    (shown_ne fmt ha.prod_pos f) (shown_ne fmt ha.prod_pos g)
    (by simpa using h2)
  exact List.map_injective_iff.2 (fun _ _ => String.toList_injective) h3.1

/-- Elements behind the tenth do not show. -/
theorem C79_detailed_truncated (fmt : T → String) (name : String) (ds : List Nat) (f g : List Nat → T)
    (h : ∀ idx, ValidIdx ds idx → ravel ds idx < 10 → f idx = g idx) :
    (ofFn ds f).toDetailedString fmt name = (ofFn ds g).toDetailedString fmt name := by
  rw [C79_detailed, C79_detailed]
  have : (shown fmt ds f).take 10 = (shown fmt ds g).take 10 := by
    apply List.ext_getElem?
    intro k
    simp only [List.getElem?_take]
    split
    · rename_i hk
      by_cases hlt : k < ds.prod
      · obtain ⟨idx, h1, h2, -⟩ := exists_idx_of_lt hlt
        subst h2
        simp only [shown, List.getElem?_map, indices_ravel h1, Option.map_some, h idx h1 hk]
      · rw [List.getElem?_eq_none (by simp [shown]; omega), List.getElem?_eq_none (by simp [shown]; omega)]
    · rfl
  rw [this]

example (fmt : ℚ → String) : (ofFn [3, 4] fun i => (i.getD 0 0 : ℚ)).toDetailedString fmt "d" = (ofFn [3, 4]
    fun i => if i.getD 0 0 = 2 ∧ 2 ≤ i.getD 1 0 then 7 else (i.getD 0 0 : ℚ)).toDetailedString fmt "d" := by
  refine C79_detailed_truncated fmt "d" _ _ _ ?_
  intro idx hv hr
  obtain ⟨a, b, rfl, ha, hb⟩ := valid2_iff.1 hv
  simp only [ravel, List.prod_cons, List.prod_nil] at hr
  simp only [List.getD_cons_zero, List.getD_cons_succ]
  rw [if_neg (by omega)]

/-! ### Hypotheses -/

/-- Decimal numerals are plain. -/
example : Plain (fun n : Nat => ToString.toString n) := by
  intro n c hc
  have h : (ToString.toString n).toList = Nat.toDigits 10 n := natRepr_toList n
  rw [h] at hc
  refine ⟨fun e => comma_notMem n (e ▸ hc), ?_⟩
  rintro rfl
  have := Nat.isDigit_of_mem_toDigits (by decide) (by decide) hc
  exact absurd this (by decide)

example : (ofFn [2, 2] fun i => 10 * i.getD 0 0 + i.getD 1 0).toDetailedString (fun n : Nat => ToString.toString n) "i" =
    .ok "Tensor:\nTensorData<i, CPUDevice>:\nShape: (2, 2)\nData: [0, 1, 10, 11]\n" := by rfl

/-! ### Views -/

/-- What a view prints names its own shape and the shape of the tensor it looks at; two views of the same kind that print the same have
the same shapes, and a broadcast view never prints what a slice prints. -/
theorem C79_views (v v' : BView) (w w' : SView) {a b a' b' c d c' d' : List Nat} (ha : Dims a) (hb : Dims b) (ha' : Dims a') (hb' : Dims b')
    (hc : Dims c) (hd : Dims d) (hc' : Dims c') (hd' : Dims d')
    (hv : v.shape = shapeOf a ∧ v.orig = shapeOf b) (hv' : v'.shape = shapeOf a' ∧ v'.orig = shapeOf b')
    (hw : w.shape = shapeOf c ∧ w.orig = shapeOf d) (hw' : w'.shape = shapeOf c' ∧ w'.orig = shapeOf d') :
    v.toString = "BroadcastView of shape " ++ (shapeOf a).toString ++ " from original shape " ++ (shapeOf b).toString ∧
    w.toString = "SliceView of shape " ++ (shapeOf c).toString ++ " from original shape " ++ (shapeOf d).toString ∧
    (v.toString = v'.toString ↔ a = a' ∧ b = b') ∧ (w.toString = w'.toString ↔ c = c' ∧ d = d') ∧ v.toString ≠ w.toString := by
  have key : ∀ (s : String) {a b a' b' : List Nat}, Dims a → Dims b → Dims a' → Dims b' →
      (s ++ (shapeOf a).toString ++ " from original shape " ++ (shapeOf b).toString =
        s ++ (shapeOf a').toString ++ " from original shape " ++ (shapeOf b').toString ↔ a = a' ∧ b = b') := by
    intro s a b a' b' ha hb ha' hb'
    constructor
    · intro h
      have h1 := congrArg String.toList h
      simp only [String.toList_append, toString_printed ha.ne, toString_printed hb.ne, toString_printed ha'.ne, toString_printed hb'.ne,
        List.append_assoc, List.append_cancel_left_eq, List.cons_append, List.cons.injEq, true_and] at h1
      obtain ⟨rfl, h2⟩ := printed_append_inj ha.ne ha'.ne h1
      rw [List.append_cancel_left_eq, List.cons.injEq] at h2
      refine ⟨rfl, (printed_append_inj (r := []) (s := []) hb.ne hb'.ne ?_).1⟩
      rw [List.append_nil, List.append_nil]
      exact h2.2
    · rintro ⟨rfl, rfl⟩
      rfl
  have e1 : ∀ (v : BView) {a b : List Nat}, v.shape = shapeOf a ∧ v.orig = shapeOf b →
      v.toString = "BroadcastView of shape " ++ (shapeOf a).toString ++ " from original shape " ++ (shapeOf b).toString := by
    intro v a b h
    unfold BView.toString
    rw [h.1, h.2]
  have e2 : ∀ (v : SView) {a b : List Nat}, v.shape = shapeOf a ∧ v.orig = shapeOf b →
      v.toString = "SliceView of shape " ++ (shapeOf a).toString ++ " from original shape " ++ (shapeOf b).toString := by
    intro v a b h
    unfold SView.toString
    rw [h.1, h.2]
  refine ⟨e1 v hv, e2 w hw, ?_, ?_, ?_⟩
  · rw [e1 v hv, e1 v' hv']
    exact key _ ha hb ha' hb'
  · rw [e2 w hw, e2 w' hw']
    exact key _ hc hd hc' hd'
  · rw [e1 v hv, e2 w hw]
    intro h
    have h1 := congrArg (fun s => s.toList.head?) h
    simp [String.toList_append] at h1

/-- Every broadcast view meets the hypothesis, with the shapes it was made from. -/
example (a b : List Nat) (v : BView) (h : BView.make (shapeOf b) (shapeOf a) = .ok v) : v.shape = shapeOf a ∧ v.orig = shapeOf b := by
  unfold BView.make at h
  obtain ⟨ok, -, h⟩ := bind_ok h
  cases ok with
  | false => cases h
  | true =>
    obtain ⟨fs, -, h⟩ := bind_ok h
    cases h
    exact ⟨rfl, rfl⟩

/-! ### The logger -/

/-- Specification: the name of a level in the log. -/
def Spec.levelName : LogLevel → String
  | .info => "INFO"
  | .warning => "WARNING"
  | .error => "ERROR"

/-- With logging enabled exactly one line is written, the name of the level in brackets and the message, and the line determines level
and message; with logging disabled nothing is written. -/
theorem C79_log (l l' : LogLevel) (s s' : String) :
    logOutput true l s = "[" ++ Spec.levelName l ++ "] " ++ s ++ "\n" ∧
    (logOutput true l s = logOutput true l' s' ↔ l = l' ∧ s = s') ∧ logOutput false l s = "" := by
  refine ⟨by cases l <;> rfl, ⟨fun h => ?_, fun h => by rw [h.1, h.2]⟩, rfl⟩
  have h1 := congrArg String.toList h
  cases l <;> cases l' <;> simp [logOutput, LogLevel.toString, String.toList_append] at h1 <;>
    first
    | exact ⟨rfl, String.toList_injective h1⟩

/-! ### The console output of `train` -/

theorem console_ok (fmt : T → String) (vs : List T) :
    Net.console fmt (vs.map fun v => ofFn [1] fun _ => v) = .ok (String.join (vs.zipIdx.map fun p =>
      "Epoch " ++ ToString.toString p.2 ++ " - Loss: [" ++ fmt p.1 ++ "]\n")) := by
  have line : ∀ k v, Net.epochLine fmt k (ofFn [1] fun _ => v) = .ok ("Epoch " ++ ToString.toString k ++ " - Loss: [" ++ fmt v ++ "]\n") := by
    intro k v
    unfold Net.epochLine
    rw [C79_data, Except.bind_ok', Except.pure_eq']
    have : shown fmt [1] (fun _ => v) = [fmt v] := rfl
    rw [this, String.intercalate_singleton]
    congr 1
    apply String.toList_injective
    simp [String.toList_append]
  have key : ∀ n, n ≤ vs.length → forN n "" (fun epoch out => do
      let loss ← rd (vs.map fun v => ofFn [1] fun _ => v) epoch
      return out ++ (← Net.epochLine fmt epoch loss)) = .ok (String.join ((vs.zipIdx.take n).map fun p =>
      "Epoch " ++ ToString.toString p.2 ++ " - Loss: [" ++ fmt p.1 ++ "]\n")) := by
    intro n
    induction n with
    | zero => intro _; simp [forN]
    | succ n ih =>
      intro h
      rw [forN_succ, ih (by omega), Except.bind_ok', rd_lt (by simpa using h), Except.bind_ok', List.getElem_map, line, Except.bind_ok',
        Except.pure_eq', List.take_succ_eq_append_getElem (by simpa using h), List.map_append, String.join_append]
      simp
  unfold Net.console
  rw [List.length_map, key _ (le_refl _), List.take_of_length_le (by simp)]

end

section
variable {ρ T : Type} [Zero T] [One T] [Add T] [Sub T] [Mul T] [Div T] [Neg T] [NatCast T] [IntCast T]
  [LT T] [DecidableLT T] [LE T] [DecidableLE T] [DecidableEq T] [MathFn T]

/-- A successful training run prints one line per epoch, numbered from 0, with the mean of the epoch's losses. -/
theorem C79_train (fmt : T → String) (E : Engine ρ T) (inputs targets : List (Tensor T)) (epochs : Int) (net net' : Net ρ T)
    (rs : List (Tensor T)) (hlen : inputs.length ≤ targets.length) (hn : (inputs.length : T) ≠ 0)
    (h : trainCall E inputs targets epochs net = (.ok (), net', rs)) :
    ∃ vs : List T, vs.length = epochs.toNat ∧ rs = (vs.map fun v => ofFn [1] fun _ => v) ∧
      Net.console fmt rs = .ok (String.join (vs.zipIdx.map fun p =>
        "Epoch " ++ ToString.toString p.2 ++ " - Loss: [" ++ fmt p.1 ++ "]\n")) := by
  have hE := (C55_train E inputs targets epochs net net' rs hlen hn).1 h
  clear h
  obtain ⟨vs, h1, h2⟩ : ∃ vs : List T, vs.length = epochs.toNat ∧ rs = (vs.map fun v => ofFn [1] fun _ => v) := by
    generalize epochs.toNat = n at hE
    induction hE with
    | zero => exact ⟨[], rfl, rfl⟩
    | succ _ _ ih =>
      obtain ⟨vs, h1, rfl⟩ := ih
      exact ⟨_ :: vs, by simp [h1], rfl⟩
  exact ⟨vs, h1, h2, by rw [h2, console_ok]⟩

end

end SmartDNN
