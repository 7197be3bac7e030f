import Verif.Proofs.Reshape

/-! Lemmas about the odometer and `BroadcastView`. -/

namespace SmartDNN
open Spec

/-! ### Odometer -/

theorem ravel_zeros (ds : List Nat) : ravel ds (List.replicate ds.length 0) = 0 := by
  induction ds with
  | nil => rfl
  | cons d ds ih => simpa [ravel, List.replicate_succ] using ih

theorem validIdx_zeros {ds : List Nat} (hp : ∀ d ∈ ds, 0 < d) :
    ValidIdx ds (List.replicate ds.length 0) := by
  induction ds with
  | nil => simp
  | cons d ds ih =>
    simp only [List.length_cons, List.replicate_succ]
    exact ValidIdx.cons.2 ⟨hp d (by simp), ih (fun x hx => hp x (by simp [hx]))⟩

theorem odoStep_spec {ds idx : List Nat} (hp : ∀ d ∈ ds, 0 < d) (hv : ValidIdx ds idx) :
    (ravel ds idx + 1 < ds.prod → ∃ idx', odoStep (ints ds) (ints idx) = (true, ints idx') ∧
      ValidIdx ds idx' ∧ ravel ds idx' = ravel ds idx + 1) ∧
    (ravel ds idx + 1 = ds.prod →
      odoStep (ints ds) (ints idx) = (false, ints (List.replicate ds.length 0))) := by
  induction ds generalizing idx with
  | nil =>
    rw [validIdx_nil_iff] at hv; subst hv
    simp [odoStep, ravel]
  | cons d ds ih =>
    obtain ⟨i, is, rfl, hi, his⟩ := validIdx_cons_iff.1 hv
    have hp' : ∀ x ∈ ds, 0 < x := fun x hx => hp x (by simp [hx])
    have hpp := prod_pos_of hp'
    obtain ⟨h1, h2⟩ := ih hp' his
    have hlt := ravel_lt his
    have hm : (i + 1) * ds.prod = i * ds.prod + ds.prod := by ring
    have hle : (i + 1) * ds.prod ≤ d * ds.prod := Nat.mul_le_mul_right _ hi
    simp only [ints_cons, odoStep, ravel, List.prod_cons]
    by_cases hc : ravel ds is + 1 < ds.prod
    · obtain ⟨is', he, hv', hr'⟩ := h1 hc
      rw [he]
      simp only [if_true]
      refine ⟨fun _ => ⟨i :: is', rfl, ValidIdx.cons.2 ⟨hi, hv'⟩, ?_⟩, fun h => ?_⟩
      · simp only [ravel]; omega
      · exfalso; omega
    · have hc' : ravel ds is + 1 = ds.prod := by omega
      rw [h2 hc']
      simp only [Bool.false_eq_true, if_false]
      by_cases hd : i + 1 < d
      · have hd' : (i : Int) + 1 < d := by exact_mod_cast hd
        have hle2 : (i + 1 + 1) * ds.prod ≤ d * ds.prod := Nat.mul_le_mul_right _ hd
        have hm2 : (i + 1 + 1) * ds.prod = i * ds.prod + ds.prod + ds.prod := by ring
        rw [if_pos hd']
        refine ⟨fun _ => ⟨(i + 1) :: List.replicate ds.length 0, by simp, ?_, ?_⟩, fun h => ?_⟩
        · exact ValidIdx.cons.2 ⟨hd, validIdx_zeros hp'⟩
        · simp only [ravel, ravel_zeros]; omega
        · exfalso; omega
      · have hd' : ¬ (i : Int) + 1 < d := by exact_mod_cast hd
        have : d = i + 1 := by omega
        subst this
        rw [if_neg hd']
        refine ⟨fun h => ?_, fun _ => ?_⟩
        · exfalso; omega
        · simp [List.replicate_succ, ints]

/-- Iterating the odometer in a counted loop visits the index tuples in row-major order. -/
theorem odo_forN {σ : Type} {ds : List Nat} (hp : ∀ d ∈ ds, 0 < d)
    (body : Nat → List Int → σ → Res σ) (s : σ) :
    forN ds.prod (s, List.replicate ds.length (0 : Int)) (fun k st => do
      let s' ← body k st.2 st.1
      return (s', (odoStep (ints ds) st.2).2)) =
    (do
      let s' ← (indices ds).foldlM (fun s idx => body (ravel ds idx) (ints idx) s) s
      return (s', List.replicate ds.length (0 : Int))) := by
  have key : ∀ n ≤ ds.prod, forN n (s, List.replicate ds.length (0 : Int)) (fun k st => do
      let s' ← body k st.2 st.1
      return (s', (odoStep (ints ds) st.2).2)) =
    (do
      let s' ← ((indices ds).take n).foldlM (fun s idx => body (ravel ds idx) (ints idx) s) s
      return (s', (((indices ds)[n]?).map ints).getD (List.replicate ds.length (0 : Int)))) := by
    intro n hn
    induction n with
    | zero =>
      have : (indices ds)[0]? = some (List.replicate ds.length 0) := by
        have := indices_ravel (validIdx_zeros hp)
        rwa [ravel_zeros] at this
      simp [this, ints_replicate]
    | succ n ih =>
      rw [forN_succ, ih (by omega)]
      obtain ⟨idx, hv, hr, hi⟩ := exists_idx_of_lt (show n < ds.prod by omega)
      have htake : (indices ds).take (n + 1) = (indices ds).take n ++ [idx] := by
        rw [List.take_add_one, hi]; rfl
      rw [htake, List.foldlM_append]
      simp only [hi, Option.map_some, Option.getD_some, bind_assoc, Except.pure_eq', Except.bind_ok',
        List.foldlM_cons, List.foldlM_nil, hr, Except.bind_ok_eta]
      congr 1
      funext s1
      congr 1
      funext s2
      congr 2
      obtain ⟨h1, h2⟩ := odoStep_spec hp hv
      by_cases hlt : n + 1 < ds.prod
      · obtain ⟨idx', he, hv', hr'⟩ := h1 (by omega)
        rw [he]
        have := indices_ravel hv'
        rw [hr', hr] at this
        rw [this]; rfl
      · rw [h2 (by omega), List.getElem?_eq_none (by simp; omega)]
        simp [ints_replicate]
  rw [key ds.prod le_rfl, List.take_of_length_le (by simp), List.getElem?_eq_none (by simp)]
  rfl

/-! ### View iteration -/

theorem next_spec {ds idx : List Nat} (hp : ∀ d ∈ ds, 0 < d) (hv : ValidIdx ds idx) :
    (ravel ds idx + 1 < ds.prod → ∃ idx', ViewIter.next (shapeOf ds) ⟨ints idx, false⟩ = ⟨ints idx', false⟩ ∧
      ValidIdx ds idx' ∧ ravel ds idx' = ravel ds idx + 1) ∧
    (ravel ds idx + 1 = ds.prod →
      ViewIter.next (shapeOf ds) ⟨ints idx, false⟩ = ⟨ints (List.replicate ds.length 0), true⟩) := by
  obtain ⟨h1, h2⟩ := odoStep_spec hp hv
  constructor
  · intro h
    obtain ⟨idx', he, hv', hr'⟩ := h1 h
    exact ⟨idx', by simp [ViewIter.next, he], hv', hr'⟩
  · intro h
    simp [ViewIter.next, h2 h]

theorem begin_eq (ds : List Nat) :
    ViewIter.begin (shapeOf ds) = ⟨ints (List.replicate ds.length 0), false⟩ := by
  simp [ViewIter.begin, ints_replicate]

/-- Iterating a view of shape `ds` whose dereference at `idx` yields `g idx` produces the row-major
sequence of `g`, and terminates. -/
theorem view_toList {T : Type} {ds : List Nat} (hp : ∀ d ∈ ds, 0 < d) (deref : ViewIter → Res T)
    (g : List Nat → T)
    (hg : ∀ idx, ValidIdx ds idx → deref ⟨ints idx, false⟩ = .ok (g idx)) :
    (do
      let r ← whileFuel (fun (st : ViewIter × List T) => !st.1.isEnd)
        (fun st => do
          let x ← deref st.1
          return (st.1.next (shapeOf ds), st.2 ++ [x]))
        (shapeOf ds).size (ViewIter.begin (shapeOf ds), [])
      return r.2 : Res (List T)) = .ok ((indices ds).map g) := by
  have key : ∀ n idx acc, ValidIdx ds idx → ravel ds idx + n = ds.prod → 
      whileFuel (fun (st : ViewIter × List T) => !st.1.isEnd)
        (fun st => do
          let x ← deref st.1
          return (st.1.next (shapeOf ds), st.2 ++ [x])) n (⟨ints idx, false⟩, acc) =
      .ok (⟨ints (List.replicate ds.length 0), true⟩,
        acc ++ ((indices ds).drop (ravel ds idx)).map g) := by
    intro n
    induction n with
    | zero => intro idx acc hv hn; have := ravel_lt hv; omega
    | succ n ih =>
      intro idx acc hv hn
      have hlt := ravel_lt hv
      unfold whileFuel
      simp only [Bool.not_false, if_true]
      rw [hg idx hv]
      simp only [Except.bind_ok', Except.pure_eq'] at ih ⊢
      have hdrop : (indices ds).drop (ravel ds idx) =
          idx :: (indices ds).drop (ravel ds idx + 1) := by
        have h1 := indices_ravel hv
        have h2 : ravel ds idx < (indices ds).length := by simpa using hlt
        rw [List.drop_eq_getElem_cons h2]
        rw [List.getElem?_eq_getElem h2] at h1
        rw [Option.some.inj h1]
      obtain ⟨h1, h2⟩ := next_spec hp hv
      by_cases hc : ravel ds idx + 1 < ds.prod
      · obtain ⟨idx', he, hv', hr'⟩ := h1 hc
        rw [he, ih idx' _ hv' (by omega), hdrop, hr']
        simp
      · have hn0 : n = 0 := by omega
        subst hn0
        rw [h2 (by omega), hdrop]
        have : (indices ds).drop (ravel ds idx + 1) = [] := List.drop_of_length_le (by simp; omega)
        rw [this]
        simp [whileFuel]
  rw [begin_eq, key _ _ [] (validIdx_zeros hp) (by simp [ravel_zeros])]
  simp [ravel_zeros]

/-! ### BroadcastView -/

/-- Factors of the trailing dimensions. -/
def facs (a suf : List Nat) : List Int := List.zipWith (fun x y => if x = y then 1 else 0) a suf

theorem broadcastFactorsRev_spec (a suf pre : List Nat)
    (hf : List.Forall₂ (fun x y => x = y ∨ x = 1) a suf) :
    ∃ rest, broadcastFactorsRev (ints a) (ints (suf ++ pre)) = .ok (facs a suf ++ rest) := by
  induction hf with
  | nil =>
    have : ∀ l : List Nat, ∃ rest, broadcastFactorsRev (ints []) (ints l) = .ok rest := by
      intro l
      induction l with
      | nil => exact ⟨[], rfl⟩
      | cons b bs ih =>
        obtain ⟨rest, h⟩ := ih
        simp only [ints_nil] at h
        simp only [ints_cons, ints_nil, broadcastFactorsRev, List.headD_nil, List.tail_nil, h]
        split_ifs
        · exact ⟨_, rfl⟩
        · exact ⟨_, rfl⟩
    obtain ⟨rest, h⟩ := this pre
    exact ⟨rest, by simpa [facs] using h⟩
  | @cons x y xs ys hxy _ ih =>
    obtain ⟨rest, h⟩ := ih
    refine ⟨rest, ?_⟩
    simp only [List.cons_append, ints_cons, broadcastFactorsRev, List.headD_cons, List.tail_cons, h]
    rcases hxy with rfl | rfl
    · simp [facs]
    · by_cases h1 : (1 : Nat) = y
      · subst h1; simp [facs]
      · have h2 : ¬ ((1 : Nat) : Int) = (y : Int) := by exact_mod_cast h1
        rw [if_neg h2]
        simp [facs, h1]

theorem mapIndexRev_snoc (is fs : List Int) (ss : List Nat) (i f : Int) (s : Nat) (acc : Int)
    (h1 : is.length = fs.length) (h2 : is.length = ss.length) :
    mapIndexRev (is ++ [i]) (fs ++ [f]) (ss ++ [s]) acc =
      (if f = 1 then toInt32 (mapIndexRev is fs ss acc + i * (s : Int)) else mapIndexRev is fs ss acc) := by
  induction is generalizing fs ss acc with
  | nil =>
    cases fs with
    | nil => cases ss with
      | nil => simp [mapIndexRev]
      | cons _ _ => simp at h2
    | cons _ _ => simp at h1
  | cons a is ih =>
    cases fs with
    | nil => simp at h1
    | cons b fs =>
      cases ss with
      | nil => simp at h2
      | cons c ss =>
        simp only [List.cons_append, mapIndexRev]
        exact ih fs ss _ (by simpa using h1) (by simpa using h2)

theorem mapIndexRev_stop (is fs : List Int) (ss : List Nat) (is' fs' : List Int) (acc : Int)
    (h1 : is.length = fs.length) (h2 : is.length = ss.length) :
    mapIndexRev (is ++ is') (fs ++ fs') ss acc = mapIndexRev is fs ss acc := by
  induction is generalizing fs ss acc with
  | nil =>
    cases ss with
    | nil => 
      cases fs with
      | nil => cases is' <;> cases fs' <;> simp [mapIndexRev]
      | cons _ _ => simp at h1
    | cons _ _ => simp at h2
  | cons a is ih =>
    cases fs with
    | nil => simp at h1
    | cons b fs =>
      cases ss with
      | nil => simp at h2
      | cons c ss =>
        simp only [List.cons_append, mapIndexRev]
        exact ih fs ss _ (by simpa using h1) (by simpa using h2)

theorem toInt32_small {n : Nat} (h : n < 2 ^ 31) : toInt32 (n : Int) = n := by
  unfold toInt32
  rw [Int.bmod_eq_of_le] <;> omega

/-- Pin the coordinates of 1-sized dimensions. -/
def pin (ds idx : List Nat) : List Nat := List.zipWith (fun d i => if d = 1 then 0 else i) ds idx

theorem pin_valid {a suf idx : List Nat} (hf : List.Forall₂ (fun x y => x = y ∨ x = 1) a suf)
    (hv : ValidIdx suf idx) : ValidIdx a (pin a idx) := by
  induction hf generalizing idx with
  | nil => simp [pin]
  | @cons x y xs ys hxy _ ih =>
    obtain ⟨i, is, rfl, hi, his⟩ := validIdx_cons_iff.1 hv
    simp only [pin, List.zipWith_cons_cons]
    refine ValidIdx.cons.2 ⟨?_, ih his⟩
    rcases hxy with rfl | rfl
    · split_ifs <;> omega
    · simp

theorem mapIndexRev_aligned {a suf idx : List Nat} (hp : ∀ d ∈ a, 0 < d) (hl : a.prod < 2 ^ 31)
    (hf : List.Forall₂ (fun x y => x = y ∨ x = 1) a suf) (hv : ValidIdx suf idx) :
    mapIndexRev (ints idx).reverse (facs a suf).reverse (strides a).reverse 0 =
      (ravel a (pin a idx) : Int) := by
  induction hf generalizing idx with
  | nil => simp [mapIndexRev, ravel, facs, strides]
  | @cons x y xs ys hxy hrest ih =>
    obtain ⟨i, is, rfl, hi, his⟩ := validIdx_cons_iff.1 hv
    have hp' : ∀ d ∈ xs, 0 < d := fun d hd => hp d (by simp [hd])
    have hx : 0 < x := hp x (by simp)
    have hl' : xs.prod < 2 ^ 31 := by
      refine lt_of_le_of_lt ?_ hl
      rw [List.prod_cons]
      exact Nat.le_mul_of_pos_left _ hx
    have ih' := ih hp' hl' his
    have hval := pin_valid (List.Forall₂.cons hxy hrest) hv
    have hrl := ravel_lt hval
    have hlen : is.length = ys.length := his.length
    have hlen2 : xs.length = ys.length := hrest.length_eq
    simp only [ints_cons, facs, List.zipWith_cons_cons, strides, List.reverse_cons]
    rw [mapIndexRev_snoc _ _ _ _ _ _ _ (by simp [hlen, hlen2]) (by simp [hlen, hlen2])]
    unfold facs at ih'
    rw [ih']
    simp only [pin, List.zipWith_cons_cons, ravel] at hrl ⊢
    by_cases hxy' : x = y
    · rw [if_pos hxy']
      simp only [if_true]
      by_cases hx1 : x = 1
      · have : i = 0 := by omega
        subst this
        rw [if_pos hx1]
        simp only [Nat.zero_mul, Nat.zero_add, Int.natCast_zero, Int.zero_mul, Int.add_zero]
        rw [if_pos hx1] at hrl
        exact toInt32_small (by omega)
      · rw [if_neg hx1] at hrl ⊢
        have h3 : ((ravel xs (pin xs is) : Nat) : Int) + (i : Int) * (xs.prod : Int) =
            ((i * xs.prod + ravel xs (pin xs is) : Nat) : Int) := by push_cast; ring
        unfold pin at h3
        rw [h3]
        exact toInt32_small (by omega)
    · have hx1 : x = 1 := by rcases hxy with h | h; exact absurd h hxy'; exact h
      rw [if_neg hxy', if_pos hx1]
      simp

/-- Alignment of a stretchable dimension list with the tail of the target. -/
theorem stretches_split {a r : List Nat} (h : Stretches a r) :
    List.Forall₂ (fun x y => x = y ∨ x = 1) a (r.drop (r.length - a.length)) := by
  obtain ⟨hl, h⟩ := h
  rw [List.forall₂_iff_get]
  refine ⟨by simp; omega, fun i h1 h2 => ?_⟩
  have := h (a.length - 1 - i)
  rw [dimR_of_lt (by omega), dimR_of_lt (by omega)] at this
  have e1 : a.length - 1 - (a.length - 1 - i) = i := by omega
  have e2 : r.length - 1 - (a.length - 1 - i) = r.length - a.length + i := by omega
  simp only [e1, e2] at this
  simpa using this

theorem validIdx_drop {ds idx : List Nat} (h : ValidIdx ds idx) (n : Nat) :
    ValidIdx (ds.drop n) (idx.drop n) := by
  induction n generalizing ds idx with
  | zero => simpa using h
  | succ n ih =>
    cases h with
    | nil => simp
    | cons h1 h2 => simpa using ih h2

theorem proj_eq_pin (ds idx : List Nat) :
    proj ds idx = pin ds (idx.drop (idx.length - ds.length)) := rfl

theorem proj_valid {a r idx : List Nat} (h : Stretches a r) (hv : ValidIdx r idx) :
    ValidIdx a (proj a idx) := by
  rw [proj_eq_pin, hv.length]
  exact pin_valid (stretches_split h) (validIdx_drop hv _)

/-- Construction and reading of a broadcast view. -/
theorem bview_make {a r : List Nat} (hp : ∀ d ∈ a, 0 < d) (hl : a.prod < 2 ^ 31)
    (h : Stretches a r) :
    ∃ v, BView.make (shapeOf a) (shapeOf r) = .ok v ∧ v.shape = shapeOf r ∧
      ∀ idx, ValidIdx r idx → v.mapIndex (ints idx) = (ravel a (proj a idx) : Nat) := by
  have hsplit := stretches_split h
  have hrev := (List.forall₂_reverse_iff.2 hsplit)
  have hr : r.reverse = (r.drop (r.length - a.length)).reverse ++ (r.take (r.length - a.length)).reverse := by
    rw [← List.reverse_append, List.take_append_drop]
  obtain ⟨rest, hfac⟩ := broadcastFactorsRev_spec a.reverse _ (r.take (r.length - a.length)).reverse hrev
  rw [← hr] at hfac
  refine ⟨⟨shapeOf a, shapeOf r, (facs a.reverse (r.drop (r.length - a.length)).reverse ++ rest).reverse⟩, ?_, rfl, ?_⟩
  · unfold BView.make
    rw [areBroadcastable_shapeOf, decide_eq_true h.compat]
    simp only [Except.bind_ok', Bool.not_true, Bool.false_eq_true, if_false, Except.pure_eq']
    rw [ints_reverse, ints_reverse] at hfac
    simp only [shapeOf_dims]
    rw [hfac]
    rfl
  · intro idx hv
    unfold BView.mapIndex
    simp only [List.reverse_reverse, shapeOf_stride]
    have hi : idx.reverse = (idx.drop (r.length - a.length)).reverse ++ (idx.take (r.length - a.length)).reverse := by
      rw [← List.reverse_append, List.take_append_drop]
    have hl1 : (idx.drop (r.length - a.length)).length = a.length := by
      have := hv.length
      have := h.1
      simp; omega
    have hl2 : (r.drop (r.length - a.length)).length = a.length := hsplit.length_eq.symm
    rw [← ints_reverse, hi, ints_append,
      mapIndexRev_stop _ _ _ _ _ _ (by simp only [ints_length, List.length_reverse, hl1, facs, List.length_zipWith, hl2]; simp)
        (by simp only [ints_length, List.length_reverse, hl1, strides_length])]
    have : facs a.reverse (r.drop (r.length - a.length)).reverse = (facs a (r.drop (r.length - a.length))).reverse := by
      unfold facs
      rw [List.reverse_zipWith (by omega)]
    rw [this, ints_reverse, mapIndexRev_aligned hp hl hsplit (validIdx_drop hv _), proj_eq_pin, hv.length]

section
variable {T : Type}

theorem bview_deref {a r : List Nat} (v : BView) (hs : v.shape = shapeOf r)
    (hm : ∀ idx, ValidIdx r idx → v.mapIndex (ints idx) = (ravel a (proj a idx) : Nat))
    (h : Stretches a r) (f : List Nat → T) {idx : List Nat} (hv : ValidIdx r idx) :
    v.deref ((indices a).map f) ⟨ints idx, false⟩ = .ok (f (proj a idx)) := by
  unfold BView.deref BView.read
  simp only [Bool.false_eq_true, if_false]
  rw [if_pos (by rw [hs]; simp [hv.length]), hm idx hv]
  exact rd_some (by simp [indices_ravel (proj_valid h hv)])

theorem bview_toList {a r : List Nat} (hpr : ∀ d ∈ r, 0 < d) (v : BView) (hs : v.shape = shapeOf r)
    (hm : ∀ idx, ValidIdx r idx → v.mapIndex (ints idx) = (ravel a (proj a idx) : Nat))
    (h : Stretches a r) (f : List Nat → T) :
    v.toList ((indices a).map f) = .ok ((indices r).map (fun idx => f (proj a idx))) := by
  unfold BView.toList
  rw [hs]
  exact view_toList hpr _ _ (fun idx hv => bview_deref v hs hm h f hv)

end
end SmartDNN
