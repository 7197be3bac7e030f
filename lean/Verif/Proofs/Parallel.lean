import Verif.Model.Parallel
import Verif.Proofs.Optimizers
import Verif.Proofs.Datasets

/-!
# Parallel loops with disjoint footprints
-/

namespace SmartDNN

section
variable {L V : Type} [DecidableEq L]

omit [DecidableEq L] in
/-- Every access is in `A`, every write in `W`. -/
def Prog.Within (A W : L → Prop) : Prog L V → Prop
  | .done => True
  | .fail _ => True
  | .read l k => A l ∧ ∀ v, (k v).Within A W
  | .write l _ k => (A l ∧ W l) ∧ k.Within A W

omit [DecidableEq L] in
theorem Prog.Within.mono {A W A' W' : L → Prop} (hA : ∀ l, A l → A' l) (hW : ∀ l, W l → W' l) :
    ∀ {p : Prog L V}, p.Within A W → p.Within A' W'
  | .done, _ => trivial
  | .fail _, _ => trivial
  | .read _ _, h => ⟨hA _ h.1, fun v => (h.2 v).mono hA hW⟩
  | .write _ _ _, h => ⟨⟨hA _ h.1.1, hW _ h.1.2⟩, h.2.mono hA hW⟩

omit [DecidableEq L] in
theorem Prog.Within.seq {A W : L → Prop} {q : Prog L V} (hq : q.Within A W) :
    ∀ {p : Prog L V}, p.Within A W → (p.seq q).Within A W
  | .done, _ => hq
  | .fail _, _ => trivial
  | .read _ _, h => ⟨h.1, fun v => hq.seq (h.2 v)⟩
  | .write _ _ _, h => ⟨h.1, hq.seq h.2⟩

theorem Prog.run_seq (q : Prog L V) : ∀ (p : Prog L V) (m : Mem L V), (p.seq q).run m = p.run m >>= q.run
  | .done, m => rfl
  | .fail e, m => rfl
  | .read l k, m => by
    simp only [Prog.seq, Prog.run]
    cases m l with
    | none => rfl
    | some v => exact Prog.run_seq q (k v) m
  | .write l v k, m => by
    simp only [Prog.seq, Prog.run]
    cases m l with
    | none => rfl
    | some _ => exact Prog.run_seq q k _

/-- A program only depends on, and only changes, its footprint. -/
theorem Prog.run_frame {A W : L → Prop} (hWA : ∀ l, W l → A l) : ∀ (p : Prog L V) (m m' r : Mem L V),
    p.Within A W → (∀ l, A l → m' l = m l) → p.run m = .ok r →
    ∃ r', p.run m' = .ok r' ∧ (∀ l, A l → r' l = r l) ∧ (∀ l, ¬ W l → r' l = m' l)
  | .done, m, m', r, _, hm, h => by
    simp only [Prog.run, Except.ok.injEq] at h
    subst h
    exact ⟨m', rfl, hm, fun _ _ => rfl⟩
  | .fail e, m, m', r, _, hm, h => by simp [Prog.run] at h
  | .read l k, m, m', r, hw, hm, h => by
    simp only [Prog.run] at h ⊢
    rw [hm l hw.1]
    cases hl : m l with
    | none => rw [hl] at h; simp at h
    | some v =>
      rw [hl] at h
      exact Prog.run_frame hWA (k v) m m' r (hw.2 v) hm h
  | .write l v k, m, m', r, hw, hm, h => by
    simp only [Prog.run] at h ⊢
    rw [hm l hw.1.1]
    cases hl : m l with
    | none => rw [hl] at h; simp at h
    | some old =>
      rw [hl] at h
      obtain ⟨r', h1, h2, h3⟩ := Prog.run_frame hWA k (m.put l v) (m'.put l v) r hw.2 (by
        intro l' hl'
        unfold Mem.put
        split
        · rfl
        · exact hm l' hl') h
      refine ⟨r', h1, h2, fun l' hl' => ?_⟩
      rw [h3 l' hl']
      unfold Mem.put
      rw [if_neg (by rintro rfl; exact hl' hw.1.2)]

/-- Number of accesses of an undisturbed execution. -/
def Prog.accesses : Prog L V → Mem L V → Nat
  | .done, _ => 0
  | .fail _, _ => 0
  | .read l k, m => match m l with
    | some v => (k v).accesses m + 1
    | none => 0
  | .write l v k, m => k.accesses (m.put l v) + 1

theorem Prog.accesses_frame {A W : L → Prop} : ∀ (p : Prog L V) (m m' : Mem L V),
    p.Within A W → (∀ l, A l → m' l = m l) → p.accesses m' = p.accesses m
  | .done, _, _, _, _ => rfl
  | .fail _, _, _, _, _ => rfl
  | .read l k, m, m', hw, hm => by
    simp only [Prog.accesses]
    rw [hm l hw.1]
    cases m l with
    | none => rfl
    | some v => simp only; rw [Prog.accesses_frame (k v) m m' (hw.2 v) hm]
  | .write l v k, m, m', hw, hm => by
    simp only [Prog.accesses]
    rw [Prog.accesses_frame k (m.put l v) (m'.put l v) hw.2 (by
      intro l' hl'
      unfold Mem.put
      split
      · rfl
      · exact hm l' hl')]

/-- A family of iterations with disjoint footprints. -/
structure Disjoint' (body : Nat → Prog L V) (n : Nat) (A W : Nat → L → Prop) : Prop where
  within : ∀ i < n, (body i).Within (A i) (W i)
  sub : ∀ i < n, ∀ l, W i l → A i l
  apart : ∀ i < n, ∀ j < n, i ≠ j → ∀ l, W i l → ¬ A j l

/-- `memF` is what the iterations, each run alone from `mem0`, leave behind together. -/
structure Merged (body : Nat → Prog L V) (n : Nat) (W : Nat → L → Prop) (mem0 memF : Mem L V) : Prop where
  own : ∀ i < n, ∃ r, (body i).run mem0 = .ok r ∧ ∀ l, W i l → memF l = r l
  rest : ∀ l, (∀ i < n, ¬ W i l) → memF l = mem0 l

variable {body : Nat → Prog L V} {n : Nat} {A W : Nat → L → Prop} {mem0 memF : Mem L V}

theorem threadProg_within (hD : Disjoint' body n A W) : ∀ {is : List Nat}, (∀ i ∈ is, i < n) →
    (threadProg body is).Within (fun l => ∃ i ∈ is, A i l) (fun l => ∃ i ∈ is, W i l)
  | [], _ => trivial
  | i :: is, h => by
    show ((body i).seq (threadProg body is)).Within _ _
    refine Prog.Within.seq ?_ ?_
    · refine (threadProg_within hD (fun j hj => h j (by simp [hj]))).mono ?_ ?_
      · rintro l ⟨j, hj, hl⟩; exact ⟨j, by simp [hj], hl⟩
      · rintro l ⟨j, hj, hl⟩; exact ⟨j, by simp [hj], hl⟩
    · refine (hD.within i (h i (by simp))).mono ?_ ?_
      · intro l hl; exact ⟨i, by simp, hl⟩
      · intro l hl; exact ⟨i, by simp, hl⟩

/-- Running some iterations one after another from a memory that agrees with `mem0` on their footprints. -/
theorem threadProg_run (hD : Disjoint' body n A W) (hM : Merged body n W mem0 memF) :
    ∀ (is : List Nat), (∀ i ∈ is, i < n) → is.Nodup → ∀ m : Mem L V, (∀ i ∈ is, ∀ l, A i l → m l = mem0 l) →
      ∃ r, (threadProg body is).run m = .ok r ∧ (∀ i ∈ is, ∀ l, W i l → r l = memF l) ∧
        (∀ l, (∀ i ∈ is, ¬ W i l) → r l = m l)
  | [], _, _, m, _ => ⟨m, rfl, by simp, fun _ _ => rfl⟩
  | i :: is, hlt, hnd, m, hm => by
    have hi := hlt i (by simp)
    obtain ⟨r0, hr0, hF⟩ := hM.own i hi
    obtain ⟨r1, h1, h2, h3⟩ := Prog.run_frame (hD.sub i hi) (body i) mem0 m r0 (hD.within i hi)
      (fun l hl => hm i (by simp) l hl) hr0
    rw [List.nodup_cons] at hnd
    obtain ⟨r, h4, h5, h6⟩ := threadProg_run hD hM is (fun j hj => hlt j (by simp [hj])) hnd.2 r1 (by
      intro j hj l hl
      rw [h3 l (fun hw => hD.apart i hi j (hlt j (by simp [hj])) (by rintro rfl; exact hnd.1 hj) l hw hl)]
      exact hm j (by simp [hj]) l hl)
    refine ⟨r, ?_, ?_, ?_⟩
    · show ((body i).seq (threadProg body is)).run m = _
      rw [Prog.run_seq, h1]
      exact h4
    · intro j hj l hl
      rcases List.mem_cons.1 hj with rfl | hj
      · rw [h6 l (fun k hk hw => hD.apart j hi k (hlt k (by simp [hk])) (by rintro rfl; exact hnd.1 hk) l hl
          (hD.sub k (hlt k (by simp [hk])) l hw)), h2 l (hD.sub j hi l hl), hF l hl]
      · exact h5 j hj l hl
    · intro l hl
      rw [h6 l (fun k hk => hl k (by simp [hk])), h3 l (hl i (by simp))]

/-- What holds of every reachable configuration: each thread stays inside its footprint, would finish correctly
if left alone, and nothing outside the footprints has changed. -/
structure Good (A W : Nat → L → Prop) (parts : List (List Nat)) (n : Nat) (mem0 memF : Mem L V) (c : Config L V) :
    Prop where
  len : c.threads.length = parts.length
  thread : ∀ (t : Nat) (p : Prog L V) (is : List Nat), c.threads[t]? = some p → parts[t]? = some is →
    p.Within (fun l => ∃ i ∈ is, A i l) (fun l => ∃ i ∈ is, W i l) ∧
      ∃ r, p.run c.mem = .ok r ∧ ∀ i ∈ is, ∀ l, W i l → r l = memF l
  rest : ∀ l, (∀ i < n, ¬ W i l) → c.mem l = mem0 l

/-- Total number of accesses still to be made. -/
def Config.work (c : Config L V) : Nat := (c.threads.map (fun p => p.accesses c.mem)).sum

theorem part_lt {parts : List (List Nat)} (hp : parts.flatten.Perm (List.range n)) {t : Nat} {is : List Nat}
    (h : parts[t]? = some is) : ∀ i ∈ is, i < n := by
  intro i hi
  have : i ∈ parts.flatten := List.mem_flatten.2 ⟨is, List.mem_of_getElem? h, hi⟩
  simpa using hp.mem_iff.1 this

theorem part_apart {parts : List (List Nat)} (hp : parts.flatten.Perm (List.range n)) {s t : Nat} {is js : List Nat}
    (hs : parts[s]? = some is) (ht : parts[t]? = some js) (hne : s ≠ t) : ∀ i ∈ is, ∀ j ∈ js, i ≠ j := by
  have hnd : parts.flatten.Nodup := hp.nodup_iff.2 List.nodup_range
  rw [List.nodup_flatten] at hnd
  have hpw := hnd.2
  rw [List.pairwise_iff_getElem] at hpw
  obtain ⟨hs1, hs2⟩ := List.getElem?_eq_some_iff.1 hs
  obtain ⟨ht1, ht2⟩ := List.getElem?_eq_some_iff.1 ht
  intro i hi j hj hij
  subst hij
  rcases lt_or_gt_of_ne hne with h | h
  · have := hpw s t hs1 ht1 h
    rw [hs2, ht2] at this
    exact this hi hj
  · have := hpw t s ht1 hs1 h
    rw [hs2, ht2] at this
    exact this hj hi

theorem good_start (hD : Disjoint' body n A W) (hM : Merged body n W mem0 memF) {parts : List (List Nat)}
    (hp : parts.flatten.Perm (List.range n)) : Good A W parts n mem0 memF (Config.start mem0 body parts) := by
  refine ⟨by simp [Config.start], ?_, fun _ _ => rfl⟩
  intro t p is h1 h2
  have hp' : p = threadProg body is := by
    simp only [Config.start, List.getElem?_map, h2, Option.map_some, Option.some.injEq] at h1
    exact h1.symm
  subst hp'
  have hlt := part_lt hp h2
  refine ⟨threadProg_within hD hlt, ?_⟩
  have hnd : is.Nodup := by
    have hnd : parts.flatten.Nodup := hp.nodup_iff.2 List.nodup_range
    rw [List.nodup_flatten] at hnd
    exact hnd.1 is (List.mem_of_getElem? h2)
  obtain ⟨r, h3, h4, _⟩ := threadProg_run hD hM is hlt hnd mem0 (fun _ _ _ _ => rfl)
  exact ⟨r, h3, h4⟩

theorem getElem?_insert {α : Type _} (pre post : List α) (x : α) (t : Nat) :
    (pre ++ x :: post)[t]? = if t = pre.length then some x else (pre ++ post)[if t < pre.length then t else t - 1]? := by
  rcases Nat.lt_trichotomy t pre.length with h | h | h
  · rw [if_neg (by omega), if_pos h, List.getElem?_append_left h, List.getElem?_append_left h]
  · rw [if_pos h]; subst h; simp
  · rw [if_neg (by omega), if_neg (by omega), List.getElem?_append_right (by omega),
      List.getElem?_append_right (by omega), show t - pre.length = (t - 1 - pre.length) + 1 by omega,
      List.getElem?_cons_succ]

theorem good_step (hD : Disjoint' body n A W) {parts : List (List Nat)}
    (hp : parts.flatten.Perm (List.range n)) {c d : Config L V} (hG : Good A W parts n mem0 memF c)
    (hs : c.Step d) : Good A W parts n mem0 memF d ∧ d.work + 1 = c.work := by
  cases hs with
  | @read m pre post l k v h =>
    refine ⟨⟨by simpa using hG.len, ?_, hG.rest⟩, ?_⟩
    · intro t p is h1 h2
      simp only at h1
      rw [getElem?_insert] at h1
      by_cases ht : t = pre.length
      · rw [if_pos ht, Option.some.injEq] at h1
        subst h1
        obtain ⟨hw, r, hr, hF⟩ := hG.thread t (.read l k) is (by rw [getElem?_insert, if_pos ht]) h2
        refine ⟨hw.2 v, r, ?_, hF⟩
        simp only [Prog.run, h] at hr
        exact hr
      · rw [if_neg ht] at h1
        exact hG.thread t p is (by rw [getElem?_insert, if_neg ht]; exact h1) h2
    · simp only [Config.work, List.map_append, List.map_cons, List.sum_append, List.sum_cons, Prog.accesses, h]
      omega
  | @write m pre post l v old k h =>
    have hlen := hG.len
    simp only [List.length_append, List.length_cons] at hlen
    obtain ⟨ws, hws⟩ : ∃ ws, parts[pre.length]? = some ws := ⟨_, List.getElem?_eq_getElem (by omega)⟩
    obtain ⟨hw, r, hr, hF⟩ := hG.thread pre.length (.write l v k) ws (by rw [getElem?_insert, if_pos rfl]) hws
    obtain ⟨i0, hi0, hWl⟩ := hw.1.2
    have hi0n := part_lt hp hws i0 hi0
    have hframe : ∀ (t : Nat) (is : List Nat), parts[t]? = some is → t ≠ pre.length → ∀ l', (∃ i ∈ is, A i l') → m.put l v l' = m l' := by
      rintro t is h2 ht l' ⟨i, hi, hAl⟩
      unfold Mem.put
      rw [if_neg]
      rintro rfl
      exact hD.apart i0 hi0n i (part_lt hp h2 i hi) (part_apart hp hws h2 (Ne.symm ht) i0 hi0 i hi) l' hWl hAl
    have hsub : ∀ (t : Nat) (is : List Nat), parts[t]? = some is → ∀ l', (∃ i ∈ is, W i l') → ∃ i ∈ is, A i l' := by
      rintro t is h2 l' ⟨i, hi, hl'⟩
      exact ⟨i, hi, hD.sub i (part_lt hp h2 i hi) l' hl'⟩
    refine ⟨⟨by simpa using hG.len, ?_, ?_⟩, ?_⟩
    · intro t p is h1 h2
      simp only at h1
      rw [getElem?_insert] at h1
      by_cases ht : t = pre.length
      · rw [if_pos ht, Option.some.injEq] at h1
        subst h1
        subst ht
        rw [hws, Option.some.injEq] at h2
        subst h2
        refine ⟨hw.2, r, ?_, hF⟩
        simp only [Prog.run, h] at hr
        exact hr
      · rw [if_neg ht] at h1
        obtain ⟨hw', r', hr', hF'⟩ := hG.thread t p is (by rw [getElem?_insert, if_neg ht]; exact h1) h2
        obtain ⟨r2, h3, h4, _⟩ := Prog.run_frame (hsub t is h2) p m (m.put l v) r' hw' (hframe t is h2 ht) hr'
        refine ⟨hw', r2, h3, fun i hi l' hl' => ?_⟩
        rw [h4 l' (hsub t is h2 l' ⟨i, hi, hl'⟩)]
        exact hF' i hi l' hl'
    · intro l' hl'
      rw [← hG.rest l' hl']
      simp only [Mem.put]
      rw [if_neg]
      rintro rfl
      exact hl' i0 hi0n hWl
    · simp only [Config.work, List.map_append, List.map_cons, List.sum_append, List.sum_cons, Prog.accesses]
      have e1 : pre.map (fun p => p.accesses (m.put l v)) = pre.map (fun p => p.accesses m) := by
        apply List.ext_getElem (by simp)
        intro t h1 h2
        simp only [List.length_map] at h1
        simp only [List.getElem_map]
        obtain ⟨is, his⟩ : ∃ is, parts[t]? = some is := ⟨_, List.getElem?_eq_getElem (by omega)⟩
        obtain ⟨hw', _⟩ := hG.thread t pre[t] is (by
          rw [getElem?_insert, if_neg (by omega), if_pos h1, List.getElem?_append_left h1,
            List.getElem?_eq_getElem h1]) his
        exact Prog.accesses_frame _ _ _ hw' (hframe t is his (by omega))
      have e2 : post.map (fun p => p.accesses (m.put l v)) = post.map (fun p => p.accesses m) := by
        apply List.ext_getElem (by simp)
        intro t h1 h2
        simp only [List.length_map] at h1
        simp only [List.getElem_map]
        obtain ⟨is, his⟩ : ∃ is, parts[pre.length + 1 + t]? = some is := ⟨_, List.getElem?_eq_getElem (by omega)⟩
        obtain ⟨hw', _⟩ := hG.thread (pre.length + 1 + t) post[t] is (by
          simp only
          rw [List.getElem?_append_right (by omega), show pre.length + 1 + t - pre.length = t + 1 by omega,
            List.getElem?_cons_succ, List.getElem?_eq_getElem h1]) his
        exact Prog.accesses_frame _ _ _ hw' (hframe (pre.length + 1 + t) is his (by omega))
      rw [e1, e2]
      omega

theorem good_steps (hD : Disjoint' body n A W) {parts : List (List Nat)}
    (hp : parts.flatten.Perm (List.range n)) {c d : Config L V} (hG : Good A W parts n mem0 memF c) {k : Nat}
    (hs : Config.Steps k c d) : Good A W parts n mem0 memF d ∧ d.work + k = c.work := by
  induction hs with
  | refl => exact ⟨hG, rfl⟩
  | tail _ h2 ih =>
    obtain ⟨ih1, ih2⟩ := ih hG
    obtain ⟨h3, h4⟩ := good_step hD hp ih1 h2
    exact ⟨h3, by omega⟩

theorem Prog.run_next {p : Prog L V} {m r : Mem L V} (h : p.run m = .ok r) :
    p = .done ∨ (∃ l k v, p = .read l k ∧ m l = some v) ∨ (∃ l v k old, p = .write l v k ∧ m l = some old) := by
  cases p with
  | done => exact Or.inl rfl
  | fail e => simp [Prog.run] at h
  | read l k =>
    simp only [Prog.run] at h
    cases hl : m l with
    | none => rw [hl] at h; simp at h
    | some v => exact Or.inr (Or.inl ⟨l, k, v, rfl, hl⟩)
  | write l v k =>
    simp only [Prog.run] at h
    cases hl : m l with
    | none => rw [hl] at h; simp at h
    | some old => exact Or.inr (Or.inr ⟨l, v, k, old, rfl, hl⟩)

/-- Main theorem: with disjoint footprints, every execution of the parallel loop, under every assignment of
iterations to threads and every interleaving, is free of failures and races, can always continue until it is
finished, has a bounded number of accesses, and when finished leaves the memory `memF`. -/
theorem parallel_correct (hD : Disjoint' body n A W) (hM : Merged body n W mem0 memF) {parts : List (List Nat)}
    (hp : parts.flatten.Perm (List.range n)) {c : Config L V} {k : Nat}
    (hs : Config.Steps k (Config.start mem0 body parts) c) :
    ¬ c.Failed ∧ ¬ c.Race ∧ (c.Finished ∨ ∃ d, c.Step d) ∧ k ≤ (Config.start mem0 body parts).work ∧
      (c.Finished → c.mem = memF) := by
  obtain ⟨hG, hk⟩ := good_steps hD hp (good_start hD hM hp) hs
  have hpart : ∀ (t : Nat) (p : Prog L V), c.threads[t]? = some p → ∃ is : List Nat, parts[t]? = some is := by
    intro t p h
    obtain ⟨h1, _⟩ := List.getElem?_eq_some_iff.1 h
    exact ⟨_, List.getElem?_eq_getElem (by rw [← hG.len]; exact h1)⟩
  refine ⟨?_, ?_, ?_, by omega, ?_⟩
  · rintro ⟨p, hpm, hcase⟩
    obtain ⟨t, ht⟩ := List.mem_iff_getElem?.1 hpm
    obtain ⟨is, his⟩ := hpart t p ht
    obtain ⟨_, r, hr, _⟩ := hG.thread t p is ht his
    rcases hcase with ⟨e, rfl⟩ | ⟨l, k, rfl, hl⟩ | ⟨l, v, k, rfl, hl⟩
    · simp [Prog.run] at hr
    · simp [Prog.run, hl] at hr
    · simp [Prog.run, hl] at hr
  · rintro ⟨s, t, hne, p, q, l, hs', ht, hpw, hqa⟩
    obtain ⟨is, his⟩ := hpart s p hs'
    obtain ⟨js, hjs⟩ := hpart t q ht
    obtain ⟨hw1, _⟩ := hG.thread s p is hs' his
    obtain ⟨hw2, _⟩ := hG.thread t q js ht hjs
    obtain ⟨i, hi, hWi⟩ : ∃ i ∈ is, W i l := by
      cases p with
      | write l' v k =>
        simp only [Prog.nextWrite, Option.some.injEq] at hpw
        subst hpw
        exact hw1.1.2
      | _ => simp [Prog.nextWrite] at hpw
    obtain ⟨j, hj, hAj⟩ : ∃ j ∈ js, A j l := by
      cases q with
      | write l' v k =>
        simp only [Prog.nextAccess, Option.some.injEq] at hqa
        subst hqa
        exact hw2.1.1
      | read l' k =>
        simp only [Prog.nextAccess, Option.some.injEq] at hqa
        subst hqa
        exact hw2.1
      | _ => simp [Prog.nextAccess] at hqa
    exact hD.apart i (part_lt hp his i hi) j (part_lt hp hjs j hj) (part_apart hp his hjs hne i hi j hj) l hWi hAj
  · by_cases hf : c.Finished
    · exact Or.inl hf
    · right
      unfold Config.Finished at hf
      push Not at hf
      obtain ⟨p, hpm, hnd⟩ := hf
      obtain ⟨t, ht⟩ := List.mem_iff_getElem?.1 hpm
      obtain ⟨is, his⟩ := hpart t p ht
      obtain ⟨_, r, hr, _⟩ := hG.thread t p is ht his
      obtain ⟨pre, post, hsplit⟩ := List.append_of_mem hpm
      obtain ⟨mem, threads⟩ := c
      simp only at hsplit hr
      subst hsplit
      rcases Prog.run_next hr with h | ⟨l, k, v, rfl, hl⟩ | ⟨l, v, k, old, rfl, hl⟩
      · exact absurd h hnd
      · exact ⟨_, .read hl⟩
      · exact ⟨_, .write hl⟩
  · intro hf
    funext l
    by_cases hex : ∃ i, i < n ∧ W i l
    · obtain ⟨i, hi, hWi⟩ := hex
      have : i ∈ parts.flatten := hp.mem_iff.2 (by simpa using hi)
      obtain ⟨is, his, hii⟩ := List.mem_flatten.1 this
      obtain ⟨t, ht⟩ := List.mem_iff_getElem?.1 his
      obtain ⟨h1, _⟩ := List.getElem?_eq_some_iff.1 ht
      have hcl : t < c.threads.length := by rw [hG.len]; exact h1
      obtain ⟨_, r, hr, hF⟩ := hG.thread t c.threads[t] is (List.getElem?_eq_getElem hcl) ht
      rw [hf _ (List.getElem_mem hcl)] at hr
      simp only [Prog.run, Except.ok.injEq] at hr
      rw [hr]
      exact hF i hii l hWi
    · push Not at hex
      rw [hG.rest l hex]
      exact (hM.rest l hex).symm

/-- The sequential loop leaves the same memory. -/
theorem sequential_correct (hD : Disjoint' body n A W) (hM : Merged body n W mem0 memF) :
    forN n mem0 (fun i m => (body i).run m) = .ok memF := by
  have key : ∀ (is : List Nat) (m : Mem L V), is.foldlM (fun m i => (body i).run m) m = (threadProg body is).run m := by
    intro is
    induction is with
    | nil => intro m; rfl
    | cons i is ih =>
      intro m
      rw [List.foldlM_cons]
      show _ = ((body i).seq (threadProg body is)).run m
      rw [Prog.run_seq]
      congr 1
      funext m'
      exact ih m'
  unfold forN
  rw [key]
  obtain ⟨r, h1, h2, h3⟩ := threadProg_run hD hM (List.range n) (by simp) List.nodup_range mem0 (fun _ _ _ _ => rfl)
  rw [h1]
  congr 1
  funext l
  by_cases hex : ∃ i, i < n ∧ W i l
  · obtain ⟨i, hi, hWi⟩ := hex
    exact h2 i (by simpa using hi) l hWi
  · push Not at hex
    rw [h3 l (by simpa using hex), hM.rest l hex]

end
end SmartDNN
