import Verif.Proofs.Races
import Verif.Proofs.Random
import Verif.Proofs.Elementwise
import Verif.Props.Parallel

/-!
# C62, C70: parallel loops that share state between iterations
-/

namespace SmartDNN
open Spec

section
variable {T : Type}

/-- The parallel loop of `t.transpose(a, b)` for a tensor of dimensions `ds`. -/
def Spec.transposeLoop (ds : List Nat) (a b : Nat) : Nat → Prog TLoc (Cell T) :=
  transposeBody (shapeOf ds) (shapeOf (swapped a b ds)) a b

/-- Memory when the loop starts: the source, a zeroed result and zeroed index vectors. -/
def Spec.transposeStart [Zero T] (ds : List Nat) (a b : Nat) (f : List Nat → T) : Mem TLoc (Cell T) :=
  transposeMem (ofFn ds f).data (Tensor.zeros (T := T) (shapeOf (swapped a b ds))).data
    (List.replicate ds.length 0) (List.replicate ds.length 0)

/-- Two threads with work to do both start by writing the same place. -/
theorem transpose_first_write {ds : List Nat} (hd : Dims ds) (a b : Nat) {i : Nat} (hi : i < ds.prod) (is : List Nat) :
    (threadProg (transposeLoop (T := T) ds a b) (i :: is)).nextWrite = some (.old (ds.length - 1)) := by
  obtain ⟨idx, hv, rfl, _⟩ := exists_idx_of_lt hi
  have hun : Tensor.unflatten (ints ds) (ravel ds idx) = .ok (ints idx, 0) := by
    have := unflatten_spec hd.pos (by have := hd.lt; unfold sizeMod; omega) hv 0
    simpa using this
  show ((transposeBody (T := T) (shapeOf ds) (shapeOf (swapped a b ds)) a b (ravel ds idx)).seq
    (threadProg (transposeLoop ds a b) is)).nextWrite = _
  unfold transposeBody
  simp only [shapeOf_dims, hun, shapeOf_rank]
  obtain ⟨n, hn⟩ : ∃ n, ds.length = n + 1 := ⟨ds.length - 1, by
    have := List.length_pos_of_ne_nil hd.ne; omega⟩
  rw [hn, List.range_succ, List.reverse_append]
  rfl

/-- **C62 (race).**  Whenever at least two threads get work, parallel `transpose` has a data race: both are about to
write the same element of the shared index vector.  In C++ this is undefined behaviour.  Every tensor and every
pair of dimensions. -/
theorem C62_race_refuted [Zero T] {ds : List Nat} (hd : Dims ds) (a b : Nat) (f : List Nat → T)
    {parts : List (List Nat)} (hp : Partition ds.prod parts) {s t : Nat} (hst : s ≠ t) {i j : Nat} {is js : List Nat}
    (hs : parts[s]? = some (i :: is)) (ht : parts[t]? = some (j :: js)) :
    (Config.start (transposeStart ds a b f) (transposeLoop ds a b) parts).Race := by
  have hi := part_lt hp hs i (by simp)
  have hj := part_lt hp ht j (by simp)
  refine ⟨s, t, hst, _, _, .old (ds.length - 1), by simp only [Config.start, List.getElem?_map, hs]; rfl,
    by simp only [Config.start, List.getElem?_map, ht]; rfl, transpose_first_write hd a b hi is, ?_⟩
  have := transpose_first_write (T := T) hd a b hj js
  revert this
  cases threadProg (transposeLoop (T := T) ds a b) (j :: js) <;> simp [Prog.nextWrite, Prog.nextAccess]

/-- **C62 (refuted).**  For no tensor of two or more elements is the outcome of parallel `transpose` independent of
the schedule in the sense that `applyPair`, `matmul` and the Adam update are. -/
theorem C62_refuted [Zero T] {ds : List Nat} (hd : Dims ds) (h2 : 2 ≤ ds.prod) (a b : Nat) (f : List Nat → T) :
    ¬ ∃ memF, AlwaysGives (transposeStart ds a b f) (transposeLoop ds a b) ds.prod memF := by
  rintro ⟨memF, h⟩
  obtain ⟨n, hn⟩ : ∃ n, ds.prod = n + 2 := ⟨ds.prod - 2, by omega⟩
  have hp : Partition ds.prod [[0], (List.range (n + 1)).map Nat.succ] := by
    unfold Partition
    rw [hn, List.range_succ_eq_map (n := n + 1)]
    simp
  obtain ⟨_, hb⟩ := h _ hp
  refine (hb 0 _ (.refl _)).2.1 ?_
  rw [List.range_succ_eq_map, List.map_cons] at hp ⊢
  exact C62_race_refuted hd a b f hp (s := 0) (t := 1) (by decide) rfl rfl

theorem finished_pair {L V : Type} [DecidableEq L] {c : Config L V} (h : c.threads = [.done, .done]) : c.Finished := by
  intro p hp
  rw [h] at hp
  simpa using hp

/-- The racing interleaving of the example: thread 0 up to its two reads of `oldIndices`, one write of thread 1,
then both to the end. -/
def Spec.badSchedule : List Nat :=
  [0, 0, 0, 0, 0, 0, 1] ++ List.replicate 6 0 ++ List.replicate 11 1

/-- **C62 (wrong result).**  Transposing the 1x2 tensor [[5, 7]] gives [[5], [7]], but with two threads one
interleaving of the same accesses leaves [[7], [7]]. -/
theorem C62_wrong_result :
    (∃ r, (ofFn [1, 2] (fun i => if i = [0, 0] then (5 : Int) else 7)).transpose 0 1 = .ok r ∧ r.data = [5, 7]) ∧
    ∃ k c, Config.Steps k (Config.start (transposeStart [1, 2] 0 1 (fun i => if i = [0, 0] then (5 : Int) else 7))
        (transposeLoop [1, 2] 0 1) [[0], [1]]) c ∧ c.Finished ∧ c.mem (.dst 0) = some (.val 7) ∧
      c.mem (.dst 1) = some (.val 7) := by
  refine ⟨⟨_, transpose_ofFn ⟨by simp, by simp, by norm_num⟩ (by simp) (by simp) _, by decide⟩, ?_⟩
  refine ⟨_, _, Config.exec_steps badSchedule rfl, ?_, rfl, rfl⟩
  exact finished_pair rfl

/-- **C62 (one thread).**  When a single thread gets all iterations, in any order (in particular in the shipped
build, which does not enable OpenMP), every execution is free of races and failures, can continue until it is
finished, and then the result buffer holds the elements of the tensor returned by the sequential loop.
Missing from the full claim: schedules with two or more busy threads, for which it is false. -/
theorem C62_single_thread_partial [Zero T] {ds : List Nat} (hd : Dims ds) {a b : Nat} (ha : a < ds.length)
    (hb : b < ds.length) (f : List Nat → T) :
    ∃ r, (ofFn ds f).transpose a b = .ok r ∧
      ∀ {parts : List (List Nat)}, Partition ds.prod parts → ∀ {t : Nat},
        (∀ (s : Nat) js, s ≠ t → parts[s]? = some js → js = []) → ∀ {k c},
        Config.Steps k (Config.start (transposeStart ds a b f) (transposeLoop ds a b) parts) c →
        ¬ c.Failed ∧ ¬ c.Race ∧ (c.Finished ∨ ∃ d, Config.Step c d) ∧
          (c.Finished → ∀ i, c.mem (.dst i) = r.data[i]?.map Cell.val) := by
  refine ⟨_, transpose_ofFn hd ha hb f, ?_⟩
  intro parts hp t hother k c hs
  have hprod : (swapped a b ds).prod = ds.prod := (swapped_perm ha hb).prod_eq
  -- the sequential execution of any list of iterations
  have key : ∀ (is : List Nat), (∀ i ∈ is, i < ds.prod) → ∀ (dst : List T) (old new : List Int),
      dst.length = ds.prod → old.length = ds.length → new.length = ds.length →
      ∃ dst' old' new', (threadProg (transposeLoop (T := T) ds a b) is).run
          (transposeMem (ofFn ds f).data dst old new) = .ok (transposeMem (ofFn ds f).data dst' old' new') ∧
        dst'.length = ds.prod ∧
        ∀ idx, ValidIdx ds idx → dst'[ravel (swapped a b ds) (swapped a b idx)]? =
          if ravel ds idx ∈ is then some (f idx) else dst[ravel (swapped a b ds) (swapped a b idx)]? := by
    intro is
    induction is with
    | nil => intro _ dst old new h1 h2 h3; exact ⟨dst, old, new, rfl, h1, fun idx _ => by simp⟩
    | cons i is ih =>
      intro hlt dst old new h1 h2 h3
      obtain ⟨idx, hv, rfl, _⟩ := exists_idx_of_lt (hlt i (by simp))
      have hrun := transposeBody_run hd ha hb hv (ofFn ds f).data dst old new (f idx) (ofFn_getElem? ds f hv) h1 h2 h3
      obtain ⟨dst', old', new', h4, h5, h6⟩ := ih (fun j hj => hlt j (by simp [hj]))
        (dst.set (ravel (swapped a b ds) (swapped a b idx)) (f idx)) (ints idx) (ints (swapped a b idx))
        (by simpa using h1) (by simpa [ints] using hv.length) (by simpa [ints, swapped_length] using hv.length)
      refine ⟨dst', old', new', ?_, h5, ?_⟩
      · show ((transposeBody (T := T) (shapeOf ds) (shapeOf (swapped a b ds)) a b (ravel ds idx)).seq
          (threadProg (transposeLoop ds a b) is)).run _ = _
        rw [Prog.run_seq, hrun]
        exact h4
      · intro idx' hv'
        rw [h6 idx' hv']
        by_cases hm : ravel ds idx' ∈ is
        · rw [if_pos hm, if_pos (by simp [hm])]
        · rw [if_neg hm]
          by_cases he : idx' = idx
          · subst he
            rw [if_pos (by simp), List.getElem?_set_self (by
              have := ravel_lt (validIdx_swapped ha hb hv'); omega)]
          · rw [if_neg, List.getElem?_set_ne]
            · intro hc
              have := ravel_inj (validIdx_swapped ha hb hv) (validIdx_swapped ha hb hv') hc
              have h7 := congrArg (swapped a b) this
              rw [swapped_swapped (by rw [hv.length]; exact ha) (by rw [hv.length]; exact hb),
                swapped_swapped (by rw [hv'.length]; exact ha) (by rw [hv'.length]; exact hb)] at h7
              exact he h7.symm
            · rintro h
              rcases List.mem_cons.1 h with h | h
              · exact he (ravel_inj hv' hv h)
              · exact hm h
  -- thread t has all the iterations
  have hpos : 0 < ds.prod := hd.prod_pos
  obtain ⟨is, ht, hperm⟩ : ∃ is, parts[t]? = some is ∧ ∀ i, i < ds.prod → i ∈ is := by
    have hget : ∀ i < ds.prod, ∃ is, parts[t]? = some is ∧ i ∈ is := by
      intro i hi
      have : i ∈ parts.flatten := hp.mem_iff.2 (by simpa using hi)
      obtain ⟨js, hjs, hij⟩ := List.mem_flatten.1 this
      obtain ⟨s, hs'⟩ := List.mem_iff_getElem?.1 hjs
      by_cases hst : s = t
      · exact ⟨js, hst ▸ hs', hij⟩
      · rw [hother s js hst hs'] at hij
        simp at hij
    obtain ⟨is, h1, _⟩ := hget 0 hpos
    refine ⟨is, h1, fun i hi => ?_⟩
    obtain ⟨js, h2, h3⟩ := hget i hi
    rw [h1, Option.some.injEq] at h2
    exact h2 ▸ h3
  obtain ⟨dst', old', new', h1, h2, h3⟩ := key is (part_lt hp ht)
    (Tensor.zeros (T := T) (shapeOf (swapped a b ds))).data (List.replicate ds.length 0) (List.replicate ds.length 0)
    (by simp [Tensor.zeros, hprod]) (by simp) (by simp)
  obtain ⟨r1, r2, r3, r4⟩ := lonely_outcome hs (lonely_start ht hother h1)
  refine ⟨r1, r2, r3, fun hf i => ?_⟩
  rw [r4 hf]
  simp only [transposeMem]
  congr 1
  by_cases hi : i < ds.prod
  · obtain ⟨idx, hv, rfl, _⟩ := exists_idx_of_lt (hprod ▸ hi)
    have hv' : ValidIdx ds (swapped a b idx) := by
      have := validIdx_swapped (ds := swapped a b ds) (by rw [swapped_length]; exact ha)
        (by rw [swapped_length]; exact hb) hv
      rwa [swapped_swapped ha hb] at this
    have hl : idx.length = ds.length := by rw [hv.length, swapped_length]
    have h4 := h3 (swapped a b idx) hv'
    rw [swapped_swapped (by omega) (by omega), if_pos (hperm _ (ravel_lt hv'))] at h4
    rw [h4, ofFn_getElem? _ _ hv]
  · rw [List.getElem?_eq_none (by omega), List.getElem?_eq_none (by simp; omega)]

/-- The hypotheses: a 2x3 tensor, everything on the first of two threads. -/
example : Partition 6 [[5, 4, 3, 2, 1, 0], []] := by unfold Partition; decide

end

/-! ### Random tensors -/

section
variable {ρ T : Type} [LT T] [DecidableLT T]

/-- **C70 (race).**  Whenever at least two threads get work, the parallel loop that fills a random tensor reaches a
data race on the shared engine after a single access. -/
theorem C70_race_refuted (E : Engine ρ T) (n : Nat) (lo hi : T) (r : ρ) (dst : List T) {parts : List (List Nat)}
    {s t : Nat} (hst : s ≠ t) {i j : Nat} {is js : List Nat} (hs : parts[s]? = some (i :: is))
    (ht : parts[t]? = some (j :: js)) :
    ∃ c, Config.Steps 1 (Config.start (randomMem r dst) (randomBody E n lo hi) parts) c ∧ c.Race := by
  have h1 : (Config.start (randomMem r dst) (randomBody E n lo hi) parts).threads[s]? =
      some (threadProg (randomBody E n lo hi) (i :: is)) := by
    simp only [Config.start, List.getElem?_map, hs]; rfl
  have h2 : (Config.start (randomMem r dst) (randomBody E n lo hi) parts).threads[t]? =
      some (threadProg (randomBody E n lo hi) (j :: js)) := by
    simp only [Config.start, List.getElem?_map, ht]; rfl
  obtain ⟨hlt, _⟩ := List.getElem?_eq_some_iff.1 h1
  refine ⟨⟨randomMem r dst, (Config.start (randomMem r dst) (randomBody E n lo hi) parts).threads.set s
    ((Prog.write .engine (.state (getHeRandRange E n lo hi r).2) <|
      .write (.dst i) (.val (getHeRandRange E n lo hi r).1) .done : Prog RLoc (RCell ρ T)).seq
        (threadProg (randomBody E n lo hi) is))⟩, Config.exec_steps [s] ?_, ?_⟩
  · simp only [Config.exec, Config.stepAt, h1]
    rfl
  · refine ⟨s, t, hst, _, _, .engine, List.getElem?_set_self hlt, (List.getElem?_set_ne hst).trans h2, rfl, rfl⟩

/-- **C70 (wrong result).**  With two threads and a two-element tensor, one interleaving gives both elements the first
number of the stream and leaves the engine one draw ahead instead of two, whatever the engine. -/
theorem C70_duplicate_refuted (E : Engine ρ T) (n : Nat) (lo hi : T) (r : ρ) (x y : T) :
    ∃ k c, Config.Steps k (Config.start (randomMem r [x, y]) (randomBody E n lo hi) [[0], [1]]) c ∧ c.Finished ∧
      c.mem (.dst 0) = some (.val (getHeRandRange E n lo hi r).1) ∧
      c.mem (.dst 1) = some (.val (getHeRandRange E n lo hi r).1) ∧
      c.mem .engine = some (.state (getHeRandRange E n lo hi r).2) := by
  refine ⟨_, _, Config.exec_steps [0, 1, 0, 1, 0, 1] rfl, ?_, rfl, rfl, rfl⟩
  exact finished_pair rfl

/-- **C70 (one thread).**  When a single thread gets all iterations in increasing order, every execution ends with
exactly the elements and the engine state of the sequential loop.  Missing from the full claim: schedules with
two or more busy threads, for which it is false. -/
theorem C70_single_thread_partial [Zero T] (E : Engine ρ T) {ds : List Nat} (lo hi : T) (r : ρ) :
    ∃ u r', createRandom E (shapeOf ds) lo hi r = .ok (u, r') ∧
      ∀ {parts : List (List Nat)} {t : Nat}, parts[t]? = some (List.range ds.prod) →
        (∀ (s : Nat) js, s ≠ t → parts[s]? = some js → js = []) → ∀ {k c},
        Config.Steps k (Config.start (randomMem r (Tensor.zeros (T := T) (shapeOf ds)).data)
          (randomBody E ds.prod lo hi) parts) c →
        ¬ c.Failed ∧ ¬ c.Race ∧ (c.Finished ∨ ∃ d, Config.Step c d) ∧
          (c.Finished → c.mem = randomMem r' u.data) := by
  have key : ∀ (is : List Nat), (∀ i ∈ is, i < ds.prod) → ∀ (u : Tensor T) (r : ρ), u.data.length = ds.prod →
      ∃ u' r', is.foldlM (fun (st : Tensor T × ρ) i => do
          let (v, r') := getHeRandRange E ds.prod lo hi st.2
          let t ← st.1.set i v
          return (t, r')) (u, r) = (.ok (u', r') : Res (Tensor T × ρ)) ∧
        (threadProg (randomBody E ds.prod lo hi) is).run (randomMem r u.data) = .ok (randomMem r' u'.data) := by
    intro is
    induction is with
    | nil => intro _ u r _; exact ⟨u, r, rfl, rfl⟩
    | cons i is ih =>
      intro hlt u r hu
      have hilt := hlt i (by simp)
      have hset : u.set (i : Int) (getHeRandRange E ds.prod lo hi r).1 =
          .ok { u with data := u.data.set i (getHeRandRange E ds.prod lo hi r).1 } := by
        unfold Tensor.set
        rw [wr_lt (by omega)]
        rfl
      obtain ⟨u', r', h1, h2⟩ := ih (fun j hj => hlt j (by simp [hj]))
        { u with data := u.data.set i (getHeRandRange E ds.prod lo hi r).1 } (getHeRandRange E ds.prod lo hi r).2
        (by simpa using hu)
      refine ⟨u', r', ?_, ?_⟩
      · rw [List.foldlM_cons]
        simp only [hset, Except.bind_ok', Except.pure_eq']
        exact h1
      · show ((randomBody E ds.prod lo hi i).seq (threadProg (randomBody E ds.prod lo hi) is)).run _ = _
        rw [Prog.run_seq]
        have h3 : (randomBody E ds.prod lo hi i).run (randomMem r u.data) =
            .ok (randomMem (getHeRandRange E ds.prod lo hi r).2 (u.data.set i (getHeRandRange E ds.prod lo hi r).1)) := by
          simp only [randomBody, Prog.run, randomMem]
          have : (randomMem r u.data).put .engine (.state (getHeRandRange E ds.prod lo hi r).2) (.dst i) =
              some (.val (u.data[i]'(by omega))) := by
            simp only [Mem.put, reduceCtorEq, if_false, randomMem]
            rw [List.getElem?_eq_getElem (by omega)]
            rfl
          rw [this]
          simp only
          congr 1
          funext l
          unfold Mem.put
          cases l with
          | engine => simp [randomMem]
          | dst j =>
            simp only [RLoc.dst.injEq, reduceCtorEq, if_false, randomMem]
            by_cases hj : j = i
            · subst hj
              rw [if_pos rfl, List.getElem?_set_self (by omega)]
              rfl
            · rw [if_neg hj, List.getElem?_set_ne (Ne.symm hj)]
        rw [h3]
        exact h2
  obtain ⟨u, r', h1, h2⟩ := key (List.range ds.prod) (by simp) (Tensor.zeros (shapeOf ds)) r (by simp [Tensor.zeros])
  refine ⟨u, r', h1, ?_⟩
  intro parts t ht hother k c hs
  exact lonely_outcome hs (lonely_start ht hother h2)

end
end SmartDNN
