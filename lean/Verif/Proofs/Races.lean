import Verif.Proofs.Parallel
import Verif.Proofs.Matmul
import Verif.Spec.Parallel

/-!
# Executing parallel regions: helper lemmas
-/

namespace SmartDNN
open Spec

section
variable {L V : Type} [DecidableEq L]

/-- Let thread `t` make one access. -/
def Config.stepAt (t : Nat) (c : Config L V) : Option (Config L V) :=
  match c.threads[t]? with
  | some (.read l k) => match c.mem l with
    | some v => some ⟨c.mem, c.threads.set t (k v)⟩
    | none => none
  | some (.write l v k) => match c.mem l with
    | some _ => some ⟨c.mem.put l v, c.threads.set t k⟩
    | none => none
  | _ => none

/-- Let the threads make accesses in the given order. -/
def Config.exec : List Nat → Config L V → Option (Config L V)
  | [], c => some c
  | t :: ts, c => (c.stepAt t).bind (Config.exec ts)

theorem list_split_at {α : Type _} {l : List α} {t : Nat} {x : α} (h : l[t]? = some x) (y : α) :
    l = l.take t ++ x :: l.drop (t + 1) ∧ l.set t y = l.take t ++ y :: l.drop (t + 1) := by
  obtain ⟨h1, h2⟩ := List.getElem?_eq_some_iff.1 h
  constructor
  · conv_lhs => rw [← List.take_append_drop t l, List.drop_eq_getElem_cons h1, h2]
  · rw [List.set_eq_take_append_cons_drop, if_pos h1]

theorem Config.stepAt_step {t : Nat} {c d : Config L V} (h : c.stepAt t = some d) : c.Step d := by
  unfold Config.stepAt at h
  obtain ⟨m, ths⟩ := c
  simp only at h
  split at h
  · rename_i l k ht
    split at h
    · rename_i v hv
      simp only [Option.some.injEq] at h
      subst h
      obtain ⟨e1, e2⟩ := list_split_at ht (k v)
      rw [e2]
      conv => arg 1; rw [e1]
      exact .read hv
    · simp at h
  · rename_i l v k ht
    split at h
    · rename_i old hv
      simp only [Option.some.injEq] at h
      subst h
      obtain ⟨e1, e2⟩ := list_split_at ht k
      rw [e2]
      conv => arg 1; rw [e1]
      exact .write hv
    · simp at h
  · simp at h

theorem Config.Steps.head {n : Nat} {c d e : Config L V} (h : c.Step d) (hs : Config.Steps n d e) :
    Config.Steps (n + 1) c e := by
  induction hs with
  | refl => exact .tail (.refl _) h
  | tail _ h2 ih => exact .tail (ih h) h2

theorem Config.exec_steps : ∀ (ts : List Nat) {c d : Config L V}, c.exec ts = some d → Config.Steps ts.length c d
  | [], c, d, h => by
    simp only [Config.exec, Option.some.injEq] at h
    subst h
    exact .refl _
  | t :: ts, c, d, h => by
    simp only [Config.exec, Option.bind_eq_some_iff] at h
    obtain ⟨e, h1, h2⟩ := h
    exact (Config.exec_steps ts h2).head (Config.stepAt_step h1)

/-- Only thread `t` has anything left to do, and run on its own it ends in `r`. -/
def Lonely (t : Nat) (r : Mem L V) (c : Config L V) : Prop :=
  (∀ (s : Nat) q, s ≠ t → c.threads[s]? = some q → q = .done) ∧
    ∃ p, c.threads[t]? = some p ∧ p.run c.mem = .ok r

theorem lonely_step {t : Nat} {r : Mem L V} {c d : Config L V} (hc : Lonely t r c) (hs : c.Step d) :
    Lonely t r d := by
  obtain ⟨h1, p, h2, h3⟩ := hc
  cases hs with
  | @read m pre post l k v h =>
    simp only at h1 h2 h3
    have ht : t = pre.length := by
      by_contra hne
      have := h1 pre.length (.read l k) (fun h => hne h.symm) (by rw [getElem?_insert, if_pos rfl])
      cases this
    rw [getElem?_insert, if_pos ht, Option.some.injEq] at h2
    subst h2
    refine ⟨?_, k v, ?_, ?_⟩
    · intro s q hs hq
      simp only at hq
      refine h1 s q hs ?_
      rw [getElem?_insert, if_neg (by omega)] at hq ⊢
      exact hq
    · simp only; rw [getElem?_insert, if_pos ht]
    · simpa only [Prog.run, h] using h3
  | @write m pre post l v old k h =>
    simp only at h1 h2 h3
    have ht : t = pre.length := by
      by_contra hne
      have := h1 pre.length (.write l v k) (fun h => hne h.symm) (by rw [getElem?_insert, if_pos rfl])
      cases this
    rw [getElem?_insert, if_pos ht, Option.some.injEq] at h2
    subst h2
    refine ⟨?_, k, ?_, ?_⟩
    · intro s q hs hq
      simp only at hq
      refine h1 s q hs ?_
      rw [getElem?_insert, if_neg (by omega)] at hq ⊢
      exact hq
    · simp only; rw [getElem?_insert, if_pos ht]
    · simpa only [Prog.run, h] using h3

theorem lonely_steps {t : Nat} {r : Mem L V} {n : Nat} {c d : Config L V} (hs : Config.Steps n c d)
    (hc : Lonely t r c) : Lonely t r d := by
  induction hs with
  | refl => exact hc
  | tail _ h2 ih => exact lonely_step (ih hc) h2

/-- A region in which one thread does all the work ends like the sequential loop. -/
theorem lonely_outcome {t : Nat} {r : Mem L V} {n : Nat} {c d : Config L V} (hs : Config.Steps n c d)
    (hc : Lonely t r c) : ¬ d.Failed ∧ ¬ d.Race ∧ (d.Finished ∨ ∃ e, d.Step e) ∧ (d.Finished → d.mem = r) := by
  obtain ⟨h1, p, h2, h3⟩ := lonely_steps hs hc
  refine ⟨?_, ?_, ?_, ?_⟩
  · rintro ⟨q, hq, hcase⟩
    obtain ⟨s, hs'⟩ := List.mem_iff_getElem?.1 hq
    by_cases hst : s = t
    · subst hst
      rw [h2, Option.some.injEq] at hs'
      subst hs'
      rcases hcase with ⟨e, rfl⟩ | ⟨l, k, rfl, hl⟩ | ⟨l, v, k, rfl, hl⟩
      · simp [Prog.run] at h3
      · simp [Prog.run, hl] at h3
      · simp [Prog.run, hl] at h3
    · have := h1 s q hst hs'
      subst this
      simp at hcase
  · rintro ⟨s, t', hne, p', q', l, hs', ht', hw, ha⟩
    by_cases hst : s = t
    · have := h1 t' q' (fun h => hne (hst.trans h.symm)) ht'
      subst this
      simp [Prog.nextAccess] at ha
    · have := h1 s p' hst hs'
      subst this
      simp [Prog.nextWrite] at hw
  · by_cases hd : p = .done
    · left
      intro q hq
      obtain ⟨s, hs'⟩ := List.mem_iff_getElem?.1 hq
      by_cases hst : s = t
      · subst hst
        rw [h2, Option.some.injEq] at hs'
        exact hs' ▸ hd
      · exact h1 s q hst hs'
    · right
      rcases Prog.run_next h3 with h | ⟨l, k, v, rfl, hl⟩ | ⟨l, v, k, old, rfl, hl⟩
      · exact absurd h hd
      · exact ⟨⟨d.mem, d.threads.set t (k v)⟩, Config.stepAt_step (t := t) (by simp [Config.stepAt, h2, hl])⟩
      · exact ⟨⟨d.mem.put l v, d.threads.set t k⟩, Config.stepAt_step (t := t) (by simp [Config.stepAt, h2, hl])⟩
  · intro hf
    rw [hf p (List.mem_of_getElem? h2)] at h3
    simpa [Prog.run] using h3

/-- The iterations `is` all on thread `t`. -/
theorem lonely_start {body : Nat → Prog L V} {mem0 r : Mem L V} {parts : List (List Nat)} {t : Nat} {is : List Nat}
    (ht : parts[t]? = some is) (hother : ∀ (s : Nat) js, s ≠ t → parts[s]? = some js → js = [])
    (hr : (threadProg body is).run mem0 = .ok r) : Lonely t r (Config.start mem0 body parts) := by
  refine ⟨?_, threadProg body is, by simp [Config.start, ht], hr⟩
  intro s q hs hq
  simp only [Config.start, List.getElem?_map, Option.map_eq_some_iff] at hq
  obtain ⟨js, h1, h2⟩ := hq
  rw [hother s js hs h1] at h2
  exact h2.symm

/-! ### Bulk accesses -/

theorem writeAll_run (q : Prog L V) : ∀ (ws : List (L × V)) (m : Mem L V), (∀ w ∈ ws, m w.1 ≠ none) →
    (writeAll ws q).run m = q.run (ws.foldl (fun m w => m.put w.1 w.2) m)
  | [], _, _ => rfl
  | (l, v) :: ws, m, h => by
    obtain ⟨x, hx⟩ := Option.ne_none_iff_exists'.1 (h (l, v) (by simp))
    simp only at hx
    simp only [writeAll, Prog.run, hx, List.foldl_cons]
    apply writeAll_run q ws
    intro w hw
    unfold Mem.put
    split
    · simp
    · exact h w (by simp [hw])

theorem foldl_put_not_mem (l : L) : ∀ (ws : List (L × V)) (m : Mem L V), l ∉ ws.map Prod.fst →
    ws.foldl (fun m w => m.put w.1 w.2) m l = m l
  | [], _, _ => rfl
  | w :: ws, m, h => by
    simp only [List.map_cons, List.mem_cons, not_or] at h
    rw [List.foldl_cons, foldl_put_not_mem l ws _ h.2]
    unfold Mem.put
    rw [if_neg h.1]

theorem foldl_put_mem (l : L) (v : V) : ∀ (ws : List (L × V)) (m : Mem L V), (ws.map Prod.fst).Nodup → (l, v) ∈ ws →
    ws.foldl (fun m w => m.put w.1 w.2) m l = some v
  | [], _, _, h => by simp at h
  | w :: ws, m, hn, h => by
    rw [List.map_cons, List.nodup_cons] at hn
    rw [List.foldl_cons]
    rcases List.mem_cons.1 h with h | h
    · subst h
      rw [foldl_put_not_mem l ws _ hn.1]
      simp [Mem.put]
    · exact foldl_put_mem l v ws _ hn.2 h

theorem copyAll_run (q : Prog L V) (val : L → V) : ∀ (cs : List (L × L)) (m : Mem L V),
    (∀ c ∈ cs, m c.2 = some (val c.2) ∧ m c.1 ≠ none) → (∀ c ∈ cs, ∀ c' ∈ cs, c.1 ≠ c'.2) →
    (copyAll cs q).run m = q.run ((cs.map (fun c => (c.1, val c.2))).foldl (fun m w => m.put w.1 w.2) m)
  | [], _, _, _ => rfl
  | (d, s) :: cs, m, h, hne => by
    obtain ⟨h1, h2⟩ := h (d, s) (by simp)
    obtain ⟨x, hx⟩ := Option.ne_none_iff_exists'.1 h2
    simp only at h1 hx
    simp only [copyAll, Prog.run, hx, h1, List.map_cons, List.foldl_cons]
    apply copyAll_run q val cs
    · intro c hc
      obtain ⟨h3, h4⟩ := h c (by simp [hc])
      constructor
      · unfold Mem.put
        rw [if_neg (fun h => hne (d, s) (by simp) c (by simp [hc]) h.symm), h3]
      · unfold Mem.put
        split
        · simp
        · exact h4
    · intro c hc c' hc'
      exact hne c (by simp [hc]) c' (by simp [hc'])

theorem readAll_run (k : List V → Prog L V) (val : L → V) (m : Mem L V) : ∀ (ls : List L) (acc : List V),
    (∀ l ∈ ls, m l = some (val l)) → (readAll ls acc k).run m = (k (acc ++ ls.map val)).run m
  | [], acc, _ => by simp [readAll]
  | l :: ls, acc, h => by
    simp only [readAll, Prog.run, h l (by simp)]
    rw [readAll_run k val m ls _ (fun l' hl' => h l' (by simp [hl']))]
    simp

end

/-! ### One iteration of `transpose` -/

section
variable {T : Type}

theorem ints_getElem? (l : List Nat) (d : Nat) : (ints l)[d]? = l[d]?.map (fun n : Nat => (n : Int)) := by
  simp [ints]

theorem ints_getD (l : List Nat) (d : Nat) : (ints l).getD d 0 = ((l.getD d 0 : Nat) : Int) := by
  rw [List.getD_eq_getElem?_getD, List.getD_eq_getElem?_getD, ints_getElem?]
  cases l[d]? <;> simp

/-- One iteration run alone, whatever the index vectors held before. -/
theorem transposeBody_run {ds : List Nat} (hd : Dims ds) {a b : Nat} (ha : a < ds.length) (hb : b < ds.length)
    {idx : List Nat} (hv : ValidIdx ds idx) (src dst : List T) (old new : List Int) (x : T)
    (hx : src[ravel ds idx]? = some x) (hdst : dst.length = ds.prod) (hold : old.length = ds.length)
    (hnew : new.length = ds.length) :
    (transposeBody (T := T) (shapeOf ds) (shapeOf (swapped a b ds)) a b (ravel ds idx)).run
      (transposeMem src dst old new) =
    .ok (transposeMem src (dst.set (ravel (swapped a b ds) (swapped a b idx)) x) (ints idx)
      (ints (swapped a b idx))) := by
  have hidx : idx.length = ds.length := hv.length
  have hun : Tensor.unflatten (ints ds) (ravel ds idx) = .ok (ints idx, 0) := by
    have := unflatten_spec hd.pos (by have := hd.lt; unfold sizeMod; omega) hv 0
    simpa using this
  have hsw : Tensor.swapAt (List.range ds.length) a b = swapped a b (List.range ds.length) :=
    swapAt_eq (by simpa using ha) (by simpa using hb)
  have hds' : Dims (swapped a b ds) := dims_swapped hd ha hb
  have hv' : ValidIdx (swapped a b ds) (swapped a b idx) := validIdx_swapped ha hb hv
  have hprod : (swapped a b ds).prod = ds.prod := (swapped_perm ha hb).prod_eq
  unfold transposeBody
  simp only [shapeOf_dims, hun, shapeOf_rank, hsw]
  rw [writeAll_run]
  rotate_left
  · simp only [List.mem_map, List.mem_reverse, List.mem_range]
    rintro _ ⟨d, hd', rfl⟩
    simp only [transposeMem]
    rw [List.getElem?_eq_getElem (by omega)]
    simp
  have e1 : ((List.range ds.length).reverse.map (fun d => (TLoc.old d, (Cell.idx ((ints idx).getD d 0) : Cell T)))).foldl
      (fun m w => m.put w.1 w.2) (transposeMem src dst old new) = transposeMem src dst (ints idx) new := by
    funext l
    by_cases hl : ∃ d, d < ds.length ∧ l = TLoc.old d
    · obtain ⟨d, hd', rfl⟩ := hl
      rw [foldl_put_mem (TLoc.old d) (Cell.idx ((ints idx).getD d 0))]
      · simp only [transposeMem]
        rw [List.getD_eq_getElem?_getD, List.getElem?_eq_getElem (by simpa [ints] using by omega)]
        simp
      · rw [List.map_map]
        refine (List.nodup_reverse.2 List.nodup_range).map_on ?_
        intro x _ y _ hxy
        simpa using hxy
      · exact List.mem_map.2 ⟨d, by simpa using hd', rfl⟩
    · rw [foldl_put_not_mem]
      · cases l with
        | old d =>
          have hd' : ¬ d < ds.length := fun h => hl ⟨d, h, rfl⟩
          simp only [transposeMem]
          rw [List.getElem?_eq_none (by omega), List.getElem?_eq_none (by simp [ints]; omega)]
        | _ => rfl
      · simp only [List.map_map, List.mem_map, List.mem_reverse, List.mem_range, Function.comp]
        rintro ⟨d, hd', rfl⟩
        exact hl ⟨d, hd', rfl⟩
  rw [e1]
  have hperm : ∀ d < ds.length, (swapped a b (List.range ds.length)).getD d 0 =
      if d = a then b else if d = b then a else d := by
    intro d hd'
    rw [List.getD_eq_getElem?_getD, swapped_getElem? (by simpa using ha) (by simpa using hb)]
    rw [List.getElem?_eq_getElem (by simp; split_ifs <;> omega)]
    simp
  let val : TLoc → Cell T := fun l => match l with
    | .old d => .idx ((ints idx).getD d 0)
    | .new d => .idx ((ints (swapped a b idx)).getD d 0)
    | _ => .val x
  rw [copyAll_run _ val]
  rotate_left
  · simp only [List.mem_map, List.mem_range]
    rintro _ ⟨d, hd', rfl⟩
    simp only [hperm d hd', val, transposeMem]
    constructor
    · rw [List.getD_eq_getElem?_getD, List.getElem?_eq_getElem (by simp [ints]; split_ifs <;> omega)]
      simp
    · rw [List.getElem?_eq_getElem (by omega)]
      simp
  · simp only [List.mem_map, List.mem_range]
    rintro _ ⟨d, hd', rfl⟩ _ ⟨d', hd'', rfl⟩
    simp
  have e2 : (((List.range ds.length).map (fun d => (TLoc.new d, TLoc.old
        ((swapped a b (List.range ds.length)).getD d 0)))).map (fun c => (c.1, val c.2))).foldl
      (fun m w => m.put w.1 w.2) (transposeMem src dst (ints idx) new) =
      transposeMem src dst (ints idx) (ints (swapped a b idx)) := by
    funext l
    by_cases hl : ∃ d, d < ds.length ∧ l = TLoc.new d
    · obtain ⟨d, hd', rfl⟩ := hl
      rw [foldl_put_mem (TLoc.new d) (Cell.idx ((ints (swapped a b idx)).getD d 0))]
      · simp only [transposeMem]
        rw [List.getD_eq_getElem?_getD, List.getElem?_eq_getElem (by simp [ints, swapped_length]; omega)]
        simp
      · rw [List.map_map, List.map_map]
        refine List.nodup_range.map_on ?_
        intro x _ y _ hxy
        simpa using hxy
      · refine List.mem_map.2 ⟨_, List.mem_map.2 ⟨d, by simpa using hd', rfl⟩, ?_⟩
        simp only [val, hperm d hd']
        rw [ints_getD, ints_getD]
        congr 3
        rw [List.getD_eq_getElem?_getD, List.getD_eq_getElem?_getD, swapped_getElem? (by omega) (by omega)]
    · rw [foldl_put_not_mem]
      · cases l with
        | new d =>
          have hd' : ¬ d < ds.length := fun h => hl ⟨d, h, rfl⟩
          simp only [transposeMem]
          rw [List.getElem?_eq_none (by omega), List.getElem?_eq_none (by simp [ints, swapped_length]; omega)]
        | _ => rfl
      · simp only [List.map_map, List.mem_map, List.mem_range, Function.comp]
        rintro ⟨d, hd', rfl⟩
        exact hl ⟨d, hd', rfl⟩
  rw [e2]
  have hmap : ∀ (l : List Nat), l.length = ds.length →
      (List.range ds.length).map (fun d => (ints l).getD d 0) = ints l := by
    intro l hl
    apply List.ext_getElem
    · simp [ints, hl]
    · intro i h1 h2
      simp only [List.getElem_map, List.getElem_range]
      rw [List.getD_eq_getElem _ _ h2]
  rw [readAll_run _ val]
  rotate_left
  · simp only [List.mem_map, List.mem_range]
    rintro _ ⟨d, hd', rfl⟩
    simp only [transposeMem, val]
    rw [List.getD_eq_getElem?_getD, List.getElem?_eq_getElem (by simp [ints]; omega)]
    simp
  have e3 : ([] ++ ((List.range ds.length).map TLoc.old).map val).map Cell.toIdx = ints idx := by
    rw [List.nil_append, List.map_map, List.map_map]
    exact hmap idx hidx
  have e4 : ([] ++ ((List.range ds.length).map TLoc.new).map val).map Cell.toIdx = ints (swapped a b idx) := by
    rw [List.nil_append, List.map_map, List.map_map]
    exact hmap (swapped a b idx) (by rw [swapped_length, hidx])
  simp only [e3]
  rw [computeFlatIndex_valid hd.pos (by have := hd.lt; unfold sizeMod; omega) hv]
  simp only
  rw [readAll_run _ val]
  rotate_left
  · simp only [List.mem_map, List.mem_range]
    rintro _ ⟨d, hd', rfl⟩
    simp only [transposeMem, val]
    rw [List.getD_eq_getElem?_getD, List.getElem?_eq_getElem (by simp [ints, swapped_length]; omega)]
    simp
  simp only [e4]
  rw [computeFlatIndex_valid hds'.pos (by have := hds'.lt; unfold sizeMod; omega) hv']
  simp only [Prog.run]
  have hr := ravel_lt hv'
  have h1 : transposeMem src dst (ints idx) (ints (swapped a b idx)) (.src (ravel ds idx)) = some (.val x) := by
    simp [transposeMem, hx]
  have h2 : transposeMem src dst (ints idx) (ints (swapped a b idx))
      (.dst (ravel (swapped a b ds) (swapped a b idx))) = some (.val (dst[ravel (swapped a b ds) (swapped a b idx)])) := by
    simp only [transposeMem]
    rw [List.getElem?_eq_getElem (by omega)]
    rfl
  rw [h1]
  simp only
  rw [h2]
  simp only
  congr 1
  funext l
  unfold Mem.put
  split
  · rename_i h
    subst h
    simp only [transposeMem]
    rw [List.getElem?_set_self (by omega)]
    rfl
  · rename_i h
    cases l with
    | dst k =>
      simp only [transposeMem]
      rw [List.getElem?_set_ne (fun h' => h (by rw [h']))]
    | _ => rfl

end
end SmartDNN
