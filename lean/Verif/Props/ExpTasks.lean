import Mathlib.Data.List.Nodup
import Mathlib.Data.List.Perm.Subperm
import Verif.Model.ExpTasks

/-! Work split, crash and resume of the experiments: C45, C46, C61. -/

namespace Verif.Props

open Verif.Exps

/-! ### C45 -/

theorem strided_get {α : Type*} (T : ℕ) (hT : 1 ≤ T) (l : List α) (q : ℕ) : (strided T l)[q]? = l[q * T]? := by
  induction q generalizing l with
  | zero => cases l with
    | nil => simp [strided]
    | cons a l => simp [strided]
  | succ q ih => cases l with
    | nil => simp [strided]
    | cons a l =>
      rw [strided, List.getElem?_cons_succ, ih, List.getElem?_drop]
      rw [show (q + 1) * T = (T - 1 + q * T) + 1 by rw [Nat.add_mul]; omega, List.getElem?_cons_succ]

theorem strided_split {α : Type*} (T : ℕ) (l : List α) (i : ℕ) (hi : i < T) :
    strided T (l.drop i) = l[i]?.toList ++ strided T ((l.drop T).drop i) := by
  cases h : l.drop i with
  | nil =>
    have hlen : l.length ≤ i := List.drop_eq_nil_iff.1 h
    rw [List.getElem?_eq_none hlen, List.drop_drop, List.drop_of_length_le (by omega)]
    simp [strided]
  | cons a rest =>
    have hget : l[i]? = some a := by
      have := congrArg (·[0]?) h
      simpa [List.getElem?_drop] using this
    have hrest : rest = l.drop (i + 1) := by
      have := congrArg List.tail h
      rw [List.tail_drop] at this
      exact this.symm
    rw [hget, strided, hrest, List.drop_drop, List.drop_drop, show i + 1 + (T - 1) = T + i by omega]
    rfl

/-- C45: the lists of the tasks `0, …, T - 1` together are a rearrangement of the list of combinations: nothing is lost, nothing is
run twice. -/
theorem C45_split {α : Type*} (combos : List α) (T : ℕ) (hT : 1 ≤ T) :
    ∃ tasks : ℕ → List α, (∀ i, tasksOf combos i T = .ok (tasks i)) ∧ ((List.range T).flatMap tasks).Perm combos := by
  refine ⟨fun i => strided T (combos.drop i), fun i => ?_, ?_⟩
  · unfold tasksOf
    rw [if_neg (by omega)]
  · generalize hn : combos.length = n
    induction n using Nat.strongRecOn generalizing combos with
    | _ n ih =>
      by_cases h0 : combos = []
      · subst h0
        simp [strided]
      · have hlt : (combos.drop T).length < n := by
          have := List.length_pos_iff.2 h0
          rw [List.length_drop]
          omega
        have h1 : (List.range T).flatMap (fun i => strided T (combos.drop i)) =
            (List.range T).flatMap (fun i => combos[i]?.toList ++ strided T ((combos.drop T).drop i)) := by
          apply List.flatMap_congr
          intro i hi
          exact strided_split T combos i (List.mem_range.1 hi)
        have h2 : (List.range T).flatMap (fun i => combos[i]?.toList) = combos.take T := by
          clear * -
          induction T with
          | zero => rfl
          | succ T ih => rw [List.range_succ, List.flatMap_append, ih, List.take_add_one]; simp
        rw [h1]
        refine (List.flatMap_append_perm _ _ _).symm.trans ?_
        rw [h2]
        conv_rhs => rw [← List.take_append_drop T combos]
        exact (ih _ hlt (combos.drop T) rfl).append_left _

/-- C45, by position: the `q`-th trial of task `i` is the combination at position `i + q T`; so position `p` belongs to task `p % T`,
as its `p / T`-th trial, and to no other place of a task. -/
theorem C45_owner {α : Type*} (combos : List α) (T : ℕ) (hT : 1 ≤ T) :
    (∀ i q, ∃ tasks, tasksOf combos i T = .ok tasks ∧ tasks[q]? = combos[i + q * T]?) ∧
      ∀ p, ∃! c : ℕ × ℕ, c.1 < T ∧ c.1 + c.2 * T = p := by
  refine ⟨fun i q => ⟨strided T (combos.drop i), by unfold tasksOf; rw [if_neg (by omega)], ?_⟩, fun p => ⟨(p % T, p / T), ?_, ?_⟩⟩
  · rw [strided_get T hT, List.getElem?_drop]
  · exact ⟨Nat.mod_lt _ (by omega), by rw [Nat.mul_comm]; exact Nat.mod_add_div p T⟩
  · rintro ⟨i, q⟩ ⟨hi, rfl⟩
    simp only at hi ⊢
    rw [Nat.add_mul_mod_self_right, Nat.mod_eq_of_lt hi, Nat.add_mul_div_right _ _ (by omega), Nat.div_eq_of_lt hi, Nat.zero_add]

theorem mem_product {α β : Type*} (as : List α) (bs : List β) (a : α) (b : β) : (a, b) ∈ product as bs ↔ a ∈ as ∧ b ∈ bs := by
  unfold product
  simp only [List.mem_flatMap, List.mem_map, Prod.mk.injEq]
  constructor
  · rintro ⟨a', ha, b', hb, rfl, rfl⟩; exact ⟨ha, hb⟩
  · rintro ⟨ha, hb⟩; exact ⟨a, ha, b, hb, rfl, rfl⟩

theorem product_nodup {α β : Type*} (as : List α) (bs : List β) (ha : as.Nodup) (hb : bs.Nodup) : (product as bs).Nodup := by
  unfold product
  rw [List.nodup_flatMap]
  refine ⟨fun a _ => hb.map fun b b' h => (Prod.mk.inj h).2, ?_⟩
  refine ha.imp ?_
  intro a a' hne
  rw [Function.onFun, List.disjoint_left]
  intro c hc hc'
  obtain ⟨b, _, rfl⟩ := List.mem_map.1 hc
  obtain ⟨b', _, h⟩ := List.mem_map.1 hc'
  exact hne (Prod.mk.inj h).1.symm

theorem one_task {α : Type*} (combos : List α) (hnd : combos.Nodup) (T : ℕ) (hT : 1 ≤ T) (c : α) (hc : c ∈ combos) :
    ∃! i, i < T ∧ ∃ tasks, tasksOf combos i T = .ok tasks ∧ c ∈ tasks := by
  obtain ⟨tasks, h1, h2⟩ := C45_split combos T hT
  have hnd' := h2.nodup_iff.2 hnd
  have hc' := h2.mem_iff.2 hc
  obtain ⟨i, hi, hci⟩ := List.mem_flatMap.1 hc'
  rw [List.nodup_flatMap] at hnd'
  refine ⟨i, ⟨List.mem_range.1 hi, tasks i, h1 i, hci⟩, ?_⟩
  rintro j ⟨hj, tasks', ht, hcj⟩
  rw [h1 j, Except.ok.injEq] at ht
  subst ht
  have hp := hnd'.2
  rw [List.pairwise_iff_getElem] at hp
  have hi' := List.mem_range.1 hi
  rcases Nat.lt_trichotomy i j with h | h | h
  · have := hp i j (by simpa using hi') (by simpa using hj) h
    simp only [List.getElem_range, Function.onFun] at this
    exact absurd hcj (List.disjoint_left.1 this hci)
  · exact h.symm
  · have := hp j i (by simpa using hj) (by simpa using hi') h
    simp only [List.getElem_range, Function.onFun] at this
    exact absurd hci (List.disjoint_left.1 this hcj)

/-- C45 for the narrow-passage experiment: with no repeated entries in the configuration, every roadmap type, clearance, dimension and
trial number of the configuration is run by exactly one task, and nothing else is run. -/
theorem C45_narrow {Δ D : Type*} (deltas : List Δ) (rd kd : List D) (n T : ℕ) (hT : 1 ≤ T) (h1 : deltas.Nodup) (h2 : rd.Nodup)
    (h3 : kd.Nodup) (p : PrmType) (δ : Δ) (d : D) (t : ℕ) :
    (δ ∈ deltas ∧ (p = .radius ∧ d ∈ rd ∨ p = .knn ∧ d ∈ kd) ∧ t < n →
      ∃! i, i < T ∧ ∃ tasks, tasksOf (narrowCombos deltas rd kd n) i T = .ok tasks ∧ (p, δ, d, t) ∈ tasks) ∧
    (∀ i < T, ∀ tasks, tasksOf (narrowCombos deltas rd kd n) i T = .ok tasks → (p, δ, d, t) ∈ tasks →
      δ ∈ deltas ∧ (p = .radius ∧ d ∈ rd ∨ p = .knn ∧ d ∈ kd) ∧ t < n) := by
  have hmem : (p, δ, d, t) ∈ narrowCombos deltas rd kd n ↔ δ ∈ deltas ∧ (p = .radius ∧ d ∈ rd ∨ p = .knn ∧ d ∈ kd) ∧ t < n := by
    unfold narrowCombos
    simp only [List.mem_append, mem_product, List.mem_singleton, List.mem_range]
    tauto
  have hnd : (narrowCombos deltas rd kd n).Nodup := by
    unfold narrowCombos
    have hr := product_nodup [PrmType.radius] _ (by simp) (product_nodup deltas _ h1 (product_nodup rd _ h2 (List.nodup_range (n := n))))
    have hk := product_nodup [PrmType.knn] _ (by simp) (product_nodup deltas _ h1 (product_nodup kd _ h3 (List.nodup_range (n := n))))
    refine List.Nodup.append hr hk ?_
    rw [List.disjoint_left]
    rintro ⟨p, rest⟩ hp hp'
    have a := ((mem_product _ _ _ _).1 hp).1
    have b := ((mem_product _ _ _ _).1 hp').1
    simp only [List.mem_singleton] at a b
    rw [a] at b
    cases b
  constructor
  · intro h
    exact one_task _ hnd T hT _ (hmem.2 h)
  · intro i hi tasks ht hin
    obtain ⟨tasks', h1', h2'⟩ := C45_split (narrowCombos deltas rd kd n) T hT
    rw [h1' i, Except.ok.injEq] at ht
    subst ht
    exact hmem.1 (h2'.mem_iff.1 (List.mem_flatMap.2 ⟨i, List.mem_range.2 hi, hin⟩))

/-- C45 for the straight-line and the k-NN experiment. -/
theorem C45_line {D : Type*} (dims : List D) (n T : ℕ) (hT : 1 ≤ T) (h : dims.Nodup) (d : D) (t : ℕ) :
    (d ∈ dims ∧ t < n → ∃! i, i < T ∧ ∃ tasks, tasksOf (lineCombos dims n) i T = .ok tasks ∧ (d, t) ∈ tasks) ∧
    (∀ i < T, ∀ tasks, tasksOf (lineCombos dims n) i T = .ok tasks → (d, t) ∈ tasks → d ∈ dims ∧ t < n) := by
  have hmem : (d, t) ∈ lineCombos dims n ↔ d ∈ dims ∧ t < n := by
    unfold lineCombos
    rw [mem_product, List.mem_range]
  constructor
  · intro hdt
    exact one_task _ (product_nodup _ _ h List.nodup_range) T hT _ (hmem.2 hdt)
  · intro i hi tasks ht hin
    obtain ⟨tasks', h1', h2'⟩ := C45_split (lineCombos dims n) T hT
    rw [h1' i, Except.ok.injEq] at ht
    subst ht
    exact hmem.1 (h2'.mem_iff.1 (List.mem_flatMap.2 ⟨i, List.mem_range.2 hi, hin⟩))

theorem strided_nil {α : Type*} (T : ℕ) : strided T ([] : List α) = [] := by simp [strided]

/-- Seven combinations and three tasks. -/
theorem C45_nonvacuous : tasksOf [10, 11, 12, 13, 14, 15, 16] 0 3 = .ok [10, 13, 16] ∧
    tasksOf [10, 11, 12, 13, 14, 15, 16] 1 3 = .ok [11, 14] ∧ tasksOf [10, 11, 12, 13, 14, 15, 16] 2 3 = .ok [12, 15] := by
  simp [tasksOf, strided]

/-! ### C46 -/

variable {τ σ : Type*}

/-- Specification: the tasks in their order, each with all its rows, and nothing else. -/
def RecordedOnce (rowsPer : τ → ℕ) (tasks : List τ) (file : List (Row τ σ)) : Prop :=
  file.map (·.task) = tasks.flatMap fun t => List.replicate (rowsPer t) t

theorem states_mem (rowsPer : τ → ℕ) (seeds : ℕ → σ) (file : List (Row τ σ)) (i : ℕ) (ts : List τ) (f : List (Row τ σ)) :
    f ∈ states rowsPer seeds file i ts ↔ ∃ j ≤ ts.length,
      f = file ++ ((ts.take j).zipIdx i).flatMap fun c => List.replicate (rowsPer c.1) ⟨c.1, seeds c.2⟩ := by
  induction ts generalizing file i with
  | nil =>
    simp only [states, List.mem_singleton, List.length_nil, Nat.le_zero]
    constructor
    · rintro rfl; exact ⟨0, rfl, by simp⟩
    · rintro ⟨j, rfl, rfl⟩; simp
  | cons t ts ih =>
    rw [states, List.mem_cons, ih]
    constructor
    · rintro (rfl | ⟨j, hj, rfl⟩)
      · exact ⟨0, Nat.zero_le _, by simp⟩
      · exact ⟨j + 1, by simpa using hj, by rw [List.take_succ_cons, List.zipIdx_cons, List.flatMap_cons, List.append_assoc]⟩
    · rintro ⟨j, hj, rfl⟩
      cases j with
      | zero => left; simp
      | succ j =>
        right
        exact ⟨j, by simpa using hj, by rw [List.take_succ_cons, List.zipIdx_cons, List.flatMap_cons, List.append_assoc]⟩

theorem states_last (rowsPer : τ → ℕ) (seeds : ℕ → σ) (file d : List (Row τ σ)) (i : ℕ) (ts : List τ) :
    (states rowsPer seeds file i ts).getLastD d = file ++ (ts.zipIdx i).flatMap fun c => List.replicate (rowsPer c.1) ⟨c.1, seeds c.2⟩ := by
  induction ts generalizing file i d with
  | nil => simp [states]
  | cons t ts ih =>
    have hne : states rowsPer seeds (file ++ List.replicate (rowsPer t) ⟨t, seeds i⟩) (i + 1) ts ≠ [] := by
      cases ts <;> simp [states]
    rw [states, List.getLastD_cons, ih, List.zipIdx_cons, List.flatMap_cons, List.append_assoc]

theorem rows_tasks (rowsPer : τ → ℕ) (seeds : ℕ → σ) (i : ℕ) (ts : List τ) :
    ((ts.zipIdx i).flatMap fun c => List.replicate (rowsPer c.1) (⟨c.1, seeds c.2⟩ : Row τ σ)).map (·.task) =
      ts.flatMap fun t => List.replicate (rowsPer t) t := by
  induction ts generalizing i with
  | nil => rfl
  | cons t ts ih =>
    rw [List.zipIdx_cons, List.flatMap_cons, List.map_append, ih, List.flatMap_cons, List.map_replicate]

/-- C46 for the scripts that count rows, if every trial gives exactly one row: after any number of interruptions at any points, a
session that ends leaves every trial recorded exactly once. Missing: trials with more rows, see `C46_rows_false`. -/
theorem C46_rows_partial (rowsPer : τ → ℕ) (h1 : ∀ t, rowsPer t = 1) (seeds : ℕ → σ) (tasks : List τ) (file : List (Row τ σ))
    (hf : Interrupted skipRows rowsPer seeds tasks file) :
    RecordedOnce rowsPer tasks (complete skipRows rowsPer seeds tasks file) := by
  have hone : ∀ ts : List τ, (ts.flatMap fun t => List.replicate (rowsPer t) t) = ts := by
    intro ts
    induction ts with
    | nil => rfl
    | cons t ts ih => rw [List.flatMap_cons, ih, h1]; rfl
  have hinv : ∃ j, file.map (·.task) = tasks.take j ∧ j ≤ tasks.length := by
    induction hf with
    | start => exact ⟨0, by simp⟩
    | @crash f f' _ h' ih =>
      obtain ⟨j, hj, hle⟩ := ih
      unfold session at h'
      rw [states_mem] at h'
      obtain ⟨m, hm, rfl⟩ := h'
      have hlen : skipRows f = j := by
        have := congrArg List.length hj
        rw [List.length_map, List.length_take, Nat.min_eq_left hle] at this
        exact this
      rw [hlen] at hm ⊢
      refine ⟨j + m, ?_, ?_⟩
      · rw [List.map_append, rows_tasks, hone, hj, List.take_add]
      · rw [List.length_drop] at hm
        omega
  obtain ⟨j, hj, hle⟩ := hinv
  have hlen : skipRows file = j := by
    have := congrArg List.length hj
    rw [List.length_map, List.length_take, Nat.min_eq_left hle] at this
    exact this
  unfold RecordedOnce complete session
  rw [states_last, List.map_append, rows_tasks, hlen, hj, hone, hone, List.take_append_drop]

/-- C46 is false for the scripts that count rows: with two rows per trial (two sample sizes) a crash after the first of three trials
makes the script skip the second trial, which is never recorded. -/
theorem C46_rows_false : ∃ file : List (Row ℕ ℕ), Interrupted skipRows (fun _ => 2) id [0, 1, 2] file ∧
    ¬ RecordedOnce (fun _ => 2) [0, 1, 2] (complete skipRows (fun _ => 2) id [0, 1, 2] file) ∧
    ∀ r ∈ complete skipRows (fun _ => 2) id [0, 1, 2] file, r.task ≠ 1 := by
  refine ⟨[⟨0, 0⟩, ⟨0, 0⟩], .crash .start (by decide), ?_, ?_⟩
  · unfold RecordedOnce; decide
  · decide

/-- The general form of `C46_rows_false`: if a session of a script that counts rows is interrupted after `j` trials and the next one ends, exactly the first `j` trials are
recorded and those from the number of their rows on. So with two or more rows per trial, trials are lost. -/
theorem C46_rows_lost (rowsPer : τ → ℕ) (seeds : ℕ → σ) (tasks : List τ) (j : ℕ) (hj : j ≤ tasks.length) :
    ∃ file ∈ session skipRows rowsPer seeds tasks [], file.map (·.task) = (tasks.take j).flatMap (fun t => List.replicate (rowsPer t) t) ∧
      (complete skipRows rowsPer seeds tasks file).map (·.task) =
        (tasks.take j ++ tasks.drop ((tasks.take j).map rowsPer).sum).flatMap fun t => List.replicate (rowsPer t) t := by
  have h0 : skipRows ([] : List (Row τ σ)) = 0 := rfl
  refine ⟨[] ++ ((tasks.take j).zipIdx 0).flatMap fun c => List.replicate (rowsPer c.1) (⟨c.1, seeds c.2⟩ : Row τ σ), ?_, ?_, ?_⟩
  · unfold session
    rw [h0, List.drop_zero, states_mem]
    exact ⟨j, hj, rfl⟩
  · rw [List.nil_append, rows_tasks]
  · unfold complete session
    have hlen : skipRows ([] ++ ((tasks.take j).zipIdx 0).flatMap fun c => List.replicate (rowsPer c.1) (⟨c.1, seeds c.2⟩ : Row τ σ)) = ((tasks.take j).map rowsPer).sum := by
      unfold skipRows
      rw [List.nil_append, ← List.length_map (f := (·.task)), rows_tasks, List.length_flatMap]
      simp
    rw [states_last, hlen, List.map_append, List.nil_append, rows_tasks, rows_tasks, List.flatMap_append]

theorem dedup_replicate_blocks [DecidableEq σ] (rowsPer : τ → ℕ) (h1 : ∀ t, 1 ≤ rowsPer t) (seeds : ℕ → σ) (hinj : Function.Injective seeds)
    (i : ℕ) (ts : List τ) :
    ((((ts.zipIdx i).flatMap fun c => List.replicate (rowsPer c.1) (⟨c.1, seeds c.2⟩ : Row τ σ)).map (·.seed))).dedup.length = ts.length := by
  have hperm : ((((ts.zipIdx i).flatMap fun c => List.replicate (rowsPer c.1) (⟨c.1, seeds c.2⟩ : Row τ σ)).map (·.seed))).dedup.Perm
      ((List.range' i ts.length).map seeds) := by
    rw [List.perm_ext_iff_of_nodup (List.nodup_dedup _) (List.Nodup.map hinj (List.nodup_range' ..))]
    intro s
    rw [List.mem_dedup, List.mem_map, List.mem_map]
    constructor
    · rintro ⟨r, hr, rfl⟩
      obtain ⟨c, hc, hr⟩ := List.mem_flatMap.1 hr
      have := List.eq_of_mem_replicate hr
      refine ⟨c.2, ?_, by rw [this]⟩
      have h2 : c.2 ∈ (ts.zipIdx i).map Prod.snd := List.mem_map.2 ⟨c, hc, rfl⟩
      rwa [List.zipIdx_map_snd] at h2
    · rintro ⟨j, hj, rfl⟩
      rw [← List.zipIdx_map_snd i ts] at hj
      obtain ⟨c, hc, rfl⟩ := List.mem_map.1 hj
      refine ⟨⟨c.1, seeds c.2⟩, List.mem_flatMap.2 ⟨c, hc, ?_⟩, rfl⟩
      exact List.mem_replicate.2 ⟨by have := h1 c.1; omega, rfl⟩
  rw [hperm.length_eq, List.length_map, List.length_range']

/-- C46 for the narrow-passage script, which counts seeds: if the drawn seeds are different and every trial gives a row, one
interruption, at any point, is harmless. (Sessions interrupted before their first trial ends change nothing.) Missing: a second
interruption, see `C46_seeds_false`. -/
theorem C46_seeds_partial [DecidableEq σ] (rowsPer : τ → ℕ) (h1 : ∀ t, 1 ≤ rowsPer t) (seeds : ℕ → σ) (hinj : Function.Injective seeds)
    (tasks : List τ) (file : List (Row τ σ)) (hf : file ∈ session skipSeeds rowsPer seeds tasks []) :
    RecordedOnce rowsPer tasks (complete skipSeeds rowsPer seeds tasks file) := by
  unfold session at hf
  have h0 : skipSeeds ([] : List (Row τ σ)) = 0 := rfl
  rw [h0, List.drop_zero, states_mem] at hf
  obtain ⟨j, hj, rfl⟩ := hf
  have hskip : skipSeeds ([] ++ ((tasks.take j).zipIdx 0).flatMap fun c => List.replicate (rowsPer c.1) (⟨c.1, seeds c.2⟩ : Row τ σ)) = j := by
    unfold skipSeeds
    rw [List.nil_append, dedup_replicate_blocks rowsPer h1 seeds hinj, List.length_take, Nat.min_eq_left hj]
  unfold RecordedOnce complete session
  rw [states_last, hskip, List.nil_append, List.map_append, rows_tasks, rows_tasks, ← List.flatMap_append, List.take_append_drop]

theorem flatMap_sublist {α β : Type*} (f : α → List β) {l l' : List α} (h : l.Sublist l') : (l.flatMap f).Sublist (l'.flatMap f) := by
  induction h with
  | slnil => exact List.Sublist.refl _
  | cons a _ ih => rw [List.flatMap_cons]; exact ih.trans (List.sublist_append_right ..)
  | cons_cons a _ ih => rw [List.flatMap_cons, List.flatMap_cons]; exact (List.Sublist.refl _).append ih

/-- What a history of interrupted sessions of the narrow-passage script leaves: the first `j` trials are recorded, in order, among other
rows, and only the first `j` numbers of the generator were used. -/
theorem seeds_kept [DecidableEq σ] (rowsPer : τ → ℕ) (seeds : ℕ → σ) (tasks : List τ) (file : List (Row τ σ))
    (hf : Interrupted skipSeeds rowsPer seeds tasks file) :
    ∃ j ≤ tasks.length, ((tasks.take j).flatMap fun t => List.replicate (rowsPer t) t).Sublist (file.map (·.task)) ∧ skipSeeds file ≤ j ∧
      (∀ r ∈ file, r.task ∈ tasks ∧ ∃ i < j, r.seed = seeds i) := by
  have count : ∀ (f : List (Row τ σ)) (j : ℕ), (∀ r ∈ f, ∃ i < j, r.seed = seeds i) → skipSeeds f ≤ j := by
    intro f j h
    unfold skipSeeds
    have hsub : (f.map (·.seed)).dedup ⊆ (List.range j).map seeds := by
      intro s hs
      rw [List.mem_dedup, List.mem_map] at hs
      obtain ⟨r, hr, rfl⟩ := hs
      obtain ⟨i, hi, e⟩ := h r hr
      exact List.mem_map.2 ⟨i, List.mem_range.2 hi, e.symm⟩
    have := (List.subperm_of_subset (List.nodup_dedup _) hsub).length_le
    simpa using this
  induction hf with
  | start => exact ⟨0, Nat.zero_le _, by simp, by simp [skipSeeds], by simp⟩
  | @crash f f' _ h' ih =>
    obtain ⟨j, hj, hsub, hskip, hrows⟩ := ih
    unfold session at h'
    rw [states_mem] at h'
    obtain ⟨m, hm, rfl⟩ := h'
    generalize hs : skipSeeds f = s at *
    rw [List.length_drop] at hm
    have hle : max j (s + m) ≤ tasks.length := Nat.max_le.2 ⟨hj, by omega⟩
    have hrows' : ∀ r ∈ f ++ (((tasks.drop s).take m).zipIdx 0).flatMap fun c => List.replicate (rowsPer c.1) (⟨c.1, seeds c.2⟩ : Row τ σ),
        r.task ∈ tasks ∧ ∃ i < max j (s + m), r.seed = seeds i := by
      intro r hr
      rcases List.mem_append.1 hr with hr | hr
      · obtain ⟨ht, i, hi, e⟩ := hrows r hr
        exact ⟨ht, i, Nat.lt_of_lt_of_le hi (Nat.le_max_left _ _), e⟩
      · obtain ⟨c, hc, hr⟩ := List.mem_flatMap.1 hr
        have e := List.eq_of_mem_replicate hr
        have h1 : c.1 ∈ (tasks.drop s).take m := by
          rw [← List.zipIdx_map_fst 0 ((tasks.drop s).take m)]
          exact List.mem_map.2 ⟨c, hc, rfl⟩
        have h2 : c.2 ∈ (((tasks.drop s).take m).zipIdx 0).map Prod.snd := List.mem_map.2 ⟨c, hc, rfl⟩
        rw [List.zipIdx_map_snd, List.mem_range'_1] at h2
        have h3 : c.2 < m := Nat.lt_of_lt_of_le h2.2 (by simp [Nat.min_le_left])
        refine ⟨?_, c.2, Nat.lt_of_lt_of_le h3 (Nat.le_trans (Nat.le_add_left m s) (Nat.le_max_right _ _)), by rw [e]⟩
        rw [e]
        exact List.mem_of_mem_drop (List.mem_of_mem_take h1)
    refine ⟨max j (s + m), hle, ?_, count _ _ fun r hr => (hrows' r hr).2, hrows'⟩
    rw [List.map_append, rows_tasks]
    rcases Nat.le_total (s + m) j with h | h
    · rw [Nat.max_eq_left h]
      exact hsub.trans (List.sublist_append_left ..)
    · rw [Nat.max_eq_right h]
      obtain ⟨d, rfl⟩ : ∃ d, j = s + d := ⟨j - s, by omega⟩
      obtain ⟨e, rfl⟩ : ∃ e, m = d + e := ⟨m - d, by omega⟩
      rw [← Nat.add_assoc, List.take_add (i := s + d), List.flatMap_append]
      refine hsub.append (flatMap_sublist _ ?_)
      rw [List.take_add, ← List.drop_drop]
      exact List.sublist_append_right ..

/-- C46 for the narrow-passage script, any number of interruptions at any points: no trial is lost. When a session ends, all trials are
recorded in their order with all their rows, and only trials of the task are recorded; what may be there besides are repetitions. This
needs nothing of the seeds. -/
theorem C46_seeds_no_loss [DecidableEq σ] (rowsPer : τ → ℕ) (seeds : ℕ → σ) (tasks : List τ) (file : List (Row τ σ))
    (hf : Interrupted skipSeeds rowsPer seeds tasks file) :
    (tasks.flatMap fun t => List.replicate (rowsPer t) t).Sublist ((complete skipSeeds rowsPer seeds tasks file).map (·.task)) ∧
      ∀ r ∈ complete skipSeeds rowsPer seeds tasks file, r.task ∈ tasks := by
  obtain ⟨j, hj, hsub, hskip, hrows⟩ := seeds_kept rowsPer seeds tasks file hf
  unfold complete session
  rw [states_last]
  constructor
  · rw [List.map_append, rows_tasks]
    obtain ⟨d, rfl⟩ : ∃ d, j = skipSeeds file + d := ⟨j - skipSeeds file, by omega⟩
    conv_lhs => rw [← List.take_append_drop (skipSeeds file + d) tasks, List.flatMap_append, ← List.drop_drop]
    exact hsub.append (flatMap_sublist _ (List.drop_sublist _ _))
  · intro r hr
    rcases List.mem_append.1 hr with hr | hr
    · exact (hrows r hr).1
    · obtain ⟨c, hc, hr⟩ := List.mem_flatMap.1 hr
      rw [List.eq_of_mem_replicate hr]
      have h1 : c.1 ∈ tasks.drop (skipSeeds file) := by
        rw [← List.zipIdx_map_fst 0 (tasks.drop (skipSeeds file))]
        exact List.mem_map.2 ⟨c, hc, rfl⟩
      exact List.mem_of_mem_drop h1

/-- C46 is false for the narrow-passage script: the generator starts again with the first seed, so after a second interruption there are
fewer different seeds than recorded trials, and trial 1 is run and recorded again. -/
theorem C46_seeds_false : ∃ file : List (Row ℕ ℕ), Interrupted skipSeeds (fun _ => 1) id [0, 1, 2] file ∧
    (complete skipSeeds (fun _ => 1) id [0, 1, 2] file).map (·.task) = [0, 1, 1, 2] := by
  refine ⟨[⟨0, 0⟩, ⟨1, 0⟩], .crash (.crash .start (file' := [⟨0, 0⟩]) (by decide)) (by decide), by decide⟩

/-- Two trials of three were recorded, with a crash after each. -/
theorem C46_nonvacuous : Interrupted skipRows (fun _ : ℕ => 1) id [0, 1, 2] [⟨0, 0⟩, ⟨1, 0⟩] ∧
    complete skipRows (fun _ : ℕ => 1) id [0, 1, 2] [⟨0, 0⟩, ⟨1, 0⟩] = [⟨0, 0⟩, ⟨1, 0⟩, ⟨2, 0⟩] := by
  refine ⟨.crash (.crash .start (file' := [⟨0, 0⟩]) (by decide)) (by decide), by decide⟩

/-! ### C61 -/

/-- C61: within one session that starts with an empty file, different trials get the numbers drawn one after the other; so they have
different seeds if the draws are different. Missing: resumed sessions, see `C61_resumed_false`. -/
theorem C61_seeds_partial (skip : List (Row τ σ) → ℕ) (h0 : skip [] = 0) (rowsPer : τ → ℕ) (seeds : ℕ → σ) (hinj : Function.Injective seeds)
    (tasks : List τ) (hnd : tasks.Nodup) (file : List (Row τ σ)) (hf : file ∈ session skip rowsPer seeds tasks []) :
    ∀ r ∈ file, ∀ r' ∈ file, r.task = r'.task ↔ r.seed = r'.seed := by
  unfold session at hf
  rw [h0, List.drop_zero, states_mem] at hf
  obtain ⟨j, hj, rfl⟩ := hf
  have key : ∀ r ∈ [] ++ ((tasks.take j).zipIdx 0).flatMap (fun c => List.replicate (rowsPer c.1) (⟨c.1, seeds c.2⟩ : Row τ σ)),
      ∃ i : ℕ, tasks[i]? = some r.task ∧ r.seed = seeds i := by
    intro r hr
    rw [List.nil_append] at hr
    obtain ⟨c, hc, hr⟩ := List.mem_flatMap.1 hr
    have := List.eq_of_mem_replicate hr
    have h2 := List.mem_zipIdx_iff_getElem?.1 hc
    refine ⟨c.2, ?_, by rw [this]⟩
    rw [List.getElem?_take] at h2
    split at h2
    · rw [h2, this]
    · cases h2
  intro r hr r' hr'
  obtain ⟨i, h1, h2⟩ := key r hr
  obtain ⟨i', h1', h2'⟩ := key r' hr'
  rw [h2, h2']
  constructor
  · intro h
    rw [h] at h1
    have hi : i < tasks.length := (List.getElem?_eq_some_iff.1 h1).1
    have := (hnd.getElem_inj_iff (i := i) (j := i') (hi := hi) (hj := (List.getElem?_eq_some_iff.1 h1').1)).1
      (by rw [(List.getElem?_eq_some_iff.1 h1).2, (List.getElem?_eq_some_iff.1 h1').2])
    rw [this]
  · intro h
    rw [hinj h] at h1
    rw [h1] at h1'
    exact Option.some.inj h1'

/-- C61 is false after a resume: whichever way finished trials are counted, if one crash left exactly the first trial, the second trial
gets the seed of the first. -/
theorem C61_resumed_false : ∀ (seeds : ℕ → ℕ) (skip : List (Row ℕ ℕ) → ℕ), skip [⟨0, seeds 0⟩] = 1 → skip [] = 0 →
    [⟨0, seeds 0⟩] ∈ session skip (fun _ => 1) seeds [0, 1] [] ∧
      complete skip (fun _ => 1) seeds [0, 1] [⟨0, seeds 0⟩] = [⟨0, seeds 0⟩, ⟨1, seeds 0⟩] := by
  intro seeds skip h1 h0
  constructor
  · unfold session
    rw [h0]
    simp [states]
  · unfold complete session
    rw [h1]
    simp [states]

/-- The general form of `C61_resumed_false`: whatever the first session recorded before it was interrupted, and however finished trials are counted, if the resumed session skips at least one task and has
one left, it starts with the seed of the very first trial, which is in the file already. -/
theorem C61_resumed_repeats (skip : List (Row τ σ) → ℕ) (h0 : skip [] = 0) (rowsPer : τ → ℕ) (h1 : ∀ t, 1 ≤ rowsPer t) (seeds : ℕ → σ) (tasks : List τ)
    (file : List (Row τ σ)) (hf : file ∈ session skip rowsPer seeds tasks []) (hne : file ≠ []) (hs : 1 ≤ skip file) (hlt : skip file < tasks.length) :
    ∃ t t', tasks[0]? = some t ∧ tasks[skip file]? = some t' ∧ ⟨t, seeds 0⟩ ∈ file ∧ ⟨t', seeds 0⟩ ∈ complete skip rowsPer seeds tasks file := by
  have ht : 0 < tasks.length := by omega
  refine ⟨tasks[0], tasks[skip file], List.getElem?_eq_getElem ht, List.getElem?_eq_getElem hlt, ?_, ?_⟩
  · unfold session at hf
    rw [h0, List.drop_zero, states_mem] at hf
    obtain ⟨j, hj, rfl⟩ := hf
    cases j with
    | zero => simp at hne
    | succ j =>
      cases tasks with
      | nil => simp at ht
      | cons t ts =>
        have := h1 t
        simp
        left
        omega
  · unfold complete session
    rw [states_last]
    generalize skip file = m at hlt
    have := h1 tasks[m]
    rw [List.drop_eq_getElem_cons hlt, List.zipIdx_cons, List.flatMap_cons]
    refine List.mem_append_right _ (List.mem_append_left _ (List.mem_replicate.2 ⟨Nat.one_le_iff_ne_zero.1 (h1 _), rfl⟩))

theorem C61_nonvacuous : [⟨0, 7⟩, ⟨1, 8⟩] ∈ session skipRows (fun _ : ℕ => 1) (fun i => i + 7) [0, 1] [] := by decide

end Verif.Props
