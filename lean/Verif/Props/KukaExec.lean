import Mathlib.Algebra.Group.Basic
import Mathlib.Algebra.Group.TypeTags.Basic
import Mathlib.Algebra.Group.Int.Defs
import Mathlib.Data.List.Induction
import Mathlib.Tactic.NormNum
import Mathlib.Algebra.Order.Floor.Semifield
import Verif.Spec.KukaExec
import Verif.Lemmas.BatchSound
import Verif.Lemmas.PrmExample
import Verif.Props.KukaCommands
import Verif.Props.KukaWorld

/-! Property of executed kuka plans: C107. -/

set_option linter.unusedSimpArgs false

namespace Verif.Props

open Verif.Strips Verif.Spec Verif.Commands Verif.KukaExec

variable {α P C J L K F : Type} [LinearOrder K] [Field F] [LinearOrder F] [FloorSemiring F] [DecidableEq α] [DecidableEq J] [Group P]

omit [LinearOrder K] [Field F] [LinearOrder F] [FloorSemiring F] [DecidableEq α] [DecidableEq J] [Group P] in
theorem refinePath_last (between : C → C → List C) (hb : ∀ a b, (between a b).getLast? = some b) : ∀ (l : List C) (c : C), 2 ≤ l.length → l.getLast? = some c → (refinePath between l).getLast? = some c
  | [], _, h, _ => by simp at h
  | [_], _, h, _ => by simp at h
  | [a, b], c, _, h => by
    simp only [refinePath, List.append_nil, hb]
    simpa using h
  | a :: b :: d :: rest, c, _, h => by
    have ih := refinePath_last between hb (b :: d :: rest) c (by simp) (by simpa using h)
    rw [refinePath, List.getLast?_append, ih]
    rfl

omit [DecidableEq J] in
theorem shown (fk : C → P) (r : α) (j : J) (held : List (α × P)) (hh : held.length ≤ 1) (l : List C) (w : Scene α P C) (c : C) (hc : l.getLast? = some c) :
    (l.map fun x => (r, j, x, held)).foldl (Scene.visit fk) w = ⟨c, held.foldl (fun pose a => Function.update pose a.1 (fk c * a.2)) w.pose⟩ := by
  induction l generalizing w with
  | nil => simp at hc
  | cons a l ih =>
    rw [List.map_cons, List.foldl_cons]
    cases l with
    | nil =>
      obtain rfl : a = c := by simpa using hc
      rfl
    | cons b l =>
      rw [ih _ (by simpa using hc)]
      match held, hh with
      | [], _ => rfl
      | [(o, g)], _ => simp [Scene.visit]

omit [DecidableEq J] in
theorem refined_append (fk : C → P) (between : C → C → List C) (w : Scene α P C) (a b : List (Item α C J P L)) :
    execute fk w (refine between (a ++ b)) = execute fk (execute fk w (refine between a)) (refine between b) := by
  simp [execute, refine, visits, List.foldl_append]

omit [DecidableEq J] in
theorem refined_path (fk : C → P) {between : C → C → List C} (hb : ∀ a b, (between a b).getLast? = some b) (w : Scene α P C) (r : α) (j : J) (held : List (α × P)) (hh : held.length ≤ 1) (l : List C)
    (c : C) (h2 : 2 ≤ l.length) (hc : l.getLast? = some c) :
    execute fk w (refine between [(.path ⟨r, l, j, held⟩ : Item α C J P L)]) = ⟨c, held.foldl (fun pose a => Function.update pose a.1 (fk c * a.2)) w.pose⟩ := by
  simp only [execute, refine, List.map_cons, List.map_nil, visits, List.flatMap_cons, List.flatMap_nil, List.append_nil, Item.visits]
  exact shown fk r j held hh _ w c (refinePath_last between hb l c h2 hc)

omit [LinearOrder K] [Field F] [LinearOrder F] [FloorSemiring F] in
/-- Two configurations or more, from the first to the second. -/
theorem moves_path {e : Streams α P C J K F} {val : Values α P C J L} {certified : Set (KukaFact α)} {between : C → C → List C} (hl : Library e val certified between) {held : List (α × P)}
    {q1 t q2 : α} (h : Moves e val held q1 t q2) : ∃ path, val.cmd t = some [.path ⟨e.robot, path, e.joints, held⟩] ∧ path.head? = some (val.conf q1) ∧ path.getLast? = some (val.conf q2) ∧ 2 ≤ path.length := by
  obtain ⟨w, fluents, path, h1, h2⟩ := h
  refine ⟨path, h2, ?_⟩
  rw [KukaWorld.motion, if_pos ⟨rfl, rfl⟩] at h1
  split_ifs at h1 with ht
  · simp only [Except.ok.injEq, Option.some.injEq] at h1
    subst h1
    simp
  · split at h1
    · simp at h1
    · simp only [Except.ok.injEq] at h1
      exact hl.plan _ _ _ _ _ h1

omit [LinearOrder K] [Field F] [LinearOrder F] [FloorSemiring F] [DecidableEq α] [DecidableEq J] in
theorem confPath_concat (attempt : ℕ → P → Option C) (approach grasp : P) (x : P) (hx : ∀ k, attempt k (approach * (x * grasp⁻¹)) ≠ none) : ∀ (l : List P) (made : ℕ),
    ∃ c, confPath attempt approach grasp made (l ++ [x]) = (confPath attempt approach grasp made l) ++ [(x, c)] ∧ ∃ k, attempt k (approach * (x * grasp⁻¹)) = some c
  | [], made => by
    obtain ⟨c, hc⟩ := Option.ne_none_iff_exists'.1 (hx made)
    exact ⟨c, by simp [confPath, ikFn, hc], made, hc⟩
  | pose :: rest, made => by
    rw [List.cons_append, confPath, confPath]
    rcases h : ikFn attempt approach grasp pose made 10 with ⟨made', _ | c⟩
    · exact confPath_concat attempt approach grasp x hx rest made'
    · obtain ⟨c', h1, h2⟩ := confPath_concat attempt approach grasp x hx rest made'
      exact ⟨c', by simp [h1], h2⟩

omit [DecidableEq α] [DecidableEq J] in
/-- An insertion begins and ends one offset away from its two configurations. -/
theorem inserts_path {e : Streams α P C J K F} {val : Values α P C J L} {certified : Set (KukaFact α)} {between : C → C → List C} (hl : Library e val certified between)
    {q1 t q2 o g : α} (hm : .insertMotion q1 t q2 o g ∈ certified) (h : KukaExec.Inserts e val q1 t q2 o g) :
    ∃ path a z, val.cmd t = some [.path ⟨e.robot, path, e.joints, [(o, val.grasp g)]⟩] ∧ path.head? = some a ∧ path.getLast? = some z ∧ 2 ≤ path.length ∧
      e.fk a = e.approach * e.fk (val.conf q1) ∧ e.fk z = e.approach * e.fk (val.conf q2) := by
  obtain ⟨drawn, fuel, counts, path, l, _, h1, h2⟩ := h
  obtain ⟨c, h3, k, h4⟩ := confPath_concat (e.attempt t) e.approach (val.grasp g) (e.fk (val.conf q2) * val.grasp g) (hl.ends _ _ _ _ _ hm q2 (by simp)) ([e.fk (val.conf q1) * val.grasp g] ++ path) 0
  have h5 := hl.ends _ _ _ _ _ hm q1 (by simp) 0
  obtain ⟨a, h6⟩ := Option.ne_none_iff_exists'.1 h5
  rw [insertion, h3] at h1
  have h7 : ∃ m, confPath (e.attempt t) e.approach (val.grasp g) 0 ([e.fk (val.conf q1) * val.grasp g] ++ path) = (e.fk (val.conf q1) * val.grasp g, a) :: m := by
    rw [List.cons_append, confPath]
    simp only [ikFn, h6]
    exact ⟨_, rfl⟩
  obtain ⟨m, h7⟩ := h7
  rw [h7] at h1
  simp only [List.cons_append, Except.ok.injEq] at h1
  subst h1
  refine ⟨_, a, c, h2, by simp, ?_, by simp, ?_, ?_⟩
  · rw [List.map_cons, List.map_append, List.map_singleton, ← List.cons_append, List.getLast?_concat]
  · have := hl.ik _ _ _ _ h6
    simpa [mul_assoc] using this
  · have := hl.ik _ _ _ _ h4
    simpa [mul_assoc] using this

omit [DecidableEq α] in
theorem mem_facts_postInsert (b : KukaBody α) (q : α) : KukaFact.postInsert q ∈ b.facts ↔ ∃ sk post pre qpre, b.insert = some (sk, post, pre, qpre, q) := by
  unfold KukaBody.facts
  rcases hb : b.insert with _ | ⟨sk, post, pre, qpre, qpost⟩
  · simp [List.mem_append]
  · simp [List.mem_append]; tauto

omit [DecidableEq α] in
theorem start_postInsert {p : KukaProblem α} {certified : Set (KukaFact α)} (hc : KukaCertified p certified) {q : α}
    (h : .postInsert q ∈ p.start certified) : ∃ b ∈ p.bodies, .postInsert q ∈ b.facts := by
  rw [kuka_init hc (by simp [KukaFact.Certified])] at h
  simpa [KukaProblem.init] using h

/-- The configurations of a body. -/
def bodyConfs (b : KukaBody α) : List α := b.conf :: match b.insert with
  | none => []
  | some (_, _, _, qpre, qpost) => [qpre, qpost]

omit [DecidableEq α] in
theorem kin_conf {b : KukaBody α} {x g q : α} (h : .kin b.body x g q ∈ b.facts) : q ∈ bodyConfs b := by
  rw [mem_facts_kin] at h
  rcases h.2.2 with ⟨_, rfl⟩ | ⟨_, _, _, _, _, hi, ⟨_, rfl⟩ | ⟨_, rfl⟩⟩ <;> simp [bodyConfs, *]

omit [DecidableEq α] in
theorem kin_body {p : KukaProblem α} (hd : KukaDistinct p) {certified : Set (KukaFact α)} (hc : KukaCertified p certified) {b : KukaBody α} (hb : b ∈ p.bodies) {x g q : α}
    (h : .kin b.body x g q ∈ p.start certified) : .kin b.body x g q ∈ b.facts := by
  obtain ⟨b', hb', h'⟩ := start_kin hc h
  have := ((mem_facts_kin b' _ _ _ _).1 h').1
  obtain rfl : b = b' := List.inj_on_of_nodup_map hd.bodies hb hb' this
  exact h'

/-- What is known about the scene in a state. -/
structure SceneInv (e : Streams α P C J K F) (val : Values α P C J L) (p : KukaProblem α) (certified : Set (KukaFact α)) (w : Scene α P C) (t : Set (KukaFact α)) (w' : Scene α P C) : Prop where
  placed : ∀ b ∈ p.bodies, ∀ x, .atPose b.body x ∈ t → Rests e.approach val b x (w'.pose b.body)
  held : ∀ b ∈ p.bodies, ∀ x g q, .atGrasp b.body g ∈ t → .atConf q ∈ t → .kin b.body x g q ∈ p.start certified → Rests e.approach val b x (w'.pose b.body)
  conf : ∀ q, .atConf q ∈ t → w'.conf = val.conf q ∨ .postInsert q ∈ p.start certified
  other : ∀ o, o ∉ p.bodies.map KukaBody.body → w'.pose o = w.pose o

omit [LinearOrder K] [Field F] [LinearOrder F] [FloorSemiring F] [DecidableEq α] [DecidableEq J] in
/-- A pose is of one kind only. -/
theorem kin_kind {p : KukaProblem α} (hd : KukaDistinct p) {b : KukaBody α} (hb : b ∈ p.bodies) {sk post pre qpre qpost : α} (hi : b.insert = some (sk, post, pre, qpre, qpost))
    (approach : P) (val : Values α P C J L) (y : P) :
    (y = approach * val.pose pre → Rests approach val b pre y) ∧ (y = approach * (approach * val.pose post) → Rests approach val b post y) := by
  have hndp := (List.nodup_flatMap.1 hd.poses).1 b hb
  simp only [hi, List.nodup_cons, List.mem_cons, List.not_mem_nil, or_false, not_or, not_false_eq_true, List.nodup_nil, and_true] at hndp
  constructor
  · intro hy
    refine ⟨fun h => absurd h.symm hndp.1.2, fun _ _ _ _ _ => hy, fun _ _ _ _ h => ?_⟩
    rw [hi] at h
    simp only [Option.some.injEq, Prod.mk.injEq] at h
    exact absurd h.2.1 hndp.2
  · intro hy
    refine ⟨fun h => absurd h.symm hndp.1.1, fun _ _ _ _ h => ?_, fun _ _ _ _ _ => hy⟩
    rw [hi] at h
    simp only [Option.some.injEq, Prod.mk.injEq] at h
    exact absurd h.2.2.1.symm hndp.2

omit [DecidableEq α] in
theorem kin_pre {p : KukaProblem α} (hd : KukaDistinct p) {certified : Set (KukaFact α)} (hc : KukaCertified p certified) {b : KukaBody α} (hb : b ∈ p.bodies) {x g q : α}
    (h : .kin b.body x g q ∈ p.start certified) (hq : .preInsert q ∈ p.start certified) : ∃ sk post qpre qpost, b.insert = some (sk, post, x, qpre, qpost) := by
  have hk := kin_body hd hc hb h
  obtain ⟨b', hb', h'⟩ := start_preInsert hc hq
  obtain ⟨sk, post, pre, qpost, hi⟩ := (mem_facts_preInsert b' q).1 h'
  obtain rfl : b = b' := flatMap_inj hd.confs hb hb' (kin_conf hk) (by simp [hi])
  have hnd := (List.nodup_flatMap.1 hd.confs).1 b hb
  simp only [hi, List.nodup_cons, List.mem_cons, List.not_mem_nil, or_false, not_or, not_false_eq_true, List.nodup_nil, and_true] at hnd
  rw [mem_facts_kin] at hk
  rcases hk.2.2 with ⟨_, h3⟩ | ⟨_, _, _, _, _, hi', ⟨h3, _⟩ | ⟨_, h3⟩⟩
  · exact absurd h3.symm hnd.1.1
  · exact ⟨_, _, _, _, h3 ▸ hi'⟩
  · rw [hi] at hi'
    simp only [Option.some.injEq, Prod.mk.injEq] at hi'
    rw [← hi'.2.2.2.2] at h3
    exact absurd h3 hnd.2

omit [DecidableEq α] in
theorem kin_post {p : KukaProblem α} (hd : KukaDistinct p) {certified : Set (KukaFact α)} (hc : KukaCertified p certified) {b : KukaBody α} (hb : b ∈ p.bodies) {x g q : α}
    (h : .kin b.body x g q ∈ p.start certified) (hq : .postInsert q ∈ p.start certified) : ∃ sk pre qpre qpost, b.insert = some (sk, x, pre, qpre, qpost) := by
  have hk := kin_body hd hc hb h
  obtain ⟨b', hb', h'⟩ := start_postInsert hc hq
  obtain ⟨sk, post, pre, qpre, hi⟩ := (mem_facts_postInsert b' q).1 h'
  obtain rfl : b = b' := flatMap_inj hd.confs hb hb' (kin_conf hk) (by simp [hi])
  have hnd := (List.nodup_flatMap.1 hd.confs).1 b hb
  simp only [hi, List.nodup_cons, List.mem_cons, List.not_mem_nil, or_false, not_or, not_false_eq_true, List.nodup_nil, and_true] at hnd
  rw [mem_facts_kin] at hk
  rcases hk.2.2 with ⟨_, h3⟩ | ⟨_, _, _, _, _, hi', ⟨_, h3⟩ | ⟨h3, _⟩⟩
  · exact absurd h3.symm hnd.1.2
  · rw [hi] at hi'
    simp only [Option.some.injEq, Prod.mk.injEq] at hi'
    rw [← hi'.2.2.2.1] at h3
    exact absurd h3.symm hnd.2
  · exact ⟨_, _, _, _, h3 ▸ hi'⟩

omit [DecidableEq α] in
theorem kin_inj {p : KukaProblem α} (hd : KukaDistinct p) {certified : Set (KukaFact α)} (hc : KukaCertified p certified) {b : KukaBody α} (hb : b ∈ p.bodies) {x y g q : α}
    (hx : .kin b.body x g q ∈ p.start certified) (hy : .kin b.body y g q ∈ p.start certified) : x = y := by
  have h1 := kin_body hd hc hb hx
  have h2 := kin_body hd hc hb hy
  have hnd := (List.nodup_flatMap.1 hd.confs).1 b hb
  rw [mem_facts_kin] at h1 h2
  rcases hi : b.insert with _ | ⟨sk, post, pre, qpre, qpost⟩
  · simp only [hi, reduceCtorEq, false_and, exists_false, or_false] at h1 h2
    rw [h1.2.2.1, h2.2.2.1]
  · simp only [hi, List.nodup_cons, List.mem_cons, List.not_mem_nil, or_false, not_or, not_false_eq_true, List.nodup_nil, and_true] at hnd
    have h3 : ∀ z, ((z = b.pose ∧ q = b.conf) ∨ ∃ sk' post' pre' qpre' qpost', b.insert = some (sk', post', pre', qpre', qpost') ∧ ((z = pre' ∧ q = qpre') ∨ (z = post' ∧ q = qpost'))) →
        (z = b.pose ∧ q = b.conf) ∨ (z = pre ∧ q = qpre) ∨ (z = post ∧ q = qpost) := by
      rintro z (h | ⟨sk', post', pre', qpre', qpost', h, h'⟩)
      · exact .inl h
      · rw [hi] at h
        simp only [Option.some.injEq, Prod.mk.injEq] at h
        obtain ⟨rfl, rfl, rfl, rfl, rfl⟩ := h
        exact .inr h'
    rcases h3 _ h1.2.2 with ⟨rfl, rfl⟩ | ⟨rfl, rfl⟩ | ⟨rfl, rfl⟩ <;> rcases h3 _ h2.2.2 with ⟨rfl, h⟩ | ⟨rfl, h⟩ | ⟨rfl, h⟩ <;> first | rfl | (exfalso; simp_all)

omit [DecidableEq α] in
theorem start_motion {p : KukaProblem α} {certified : Set (KukaFact α)} {f : KukaFact α} (hf : match f with | .freeMotion .. | .holdingMotion .. | .insertMotion .. => True | _ => False)
    (h : f ∈ p.start certified) : f ∈ certified := by
  rcases h with h | h
  · exfalso
    simp only [KukaProblem.init, List.mem_append, List.mem_flatMap, List.mem_map] at h
    cases f <;> try exact hf
    all_goals
      rcases h with ((h | ⟨b, _, h⟩) | ⟨_, _, h⟩) | ⟨_, _, h⟩
      · simp at h
      · unfold KukaBody.facts at h
        rcases hb : b.insert with _ | ⟨sk, post, pre, qpre, qpost⟩ <;> simp [hb, List.mem_append] at h
      · simp at h
      · simp at h
  · exact h

omit [LinearOrder K] [Field F] [LinearOrder F] [FloorSemiring F] [DecidableEq J] in
/-- Moving with an object in the hand. -/
theorem SceneInv.carry {e : Streams α P C J K F} {val : Values α P C J L} {p : KukaProblem α} {certified : Set (KukaFact α)} {w w' : Scene α P C} {t : Set (KukaFact α)}
    (h : SceneInv e val p certified w t w') (hi : KukaInv (p.bodies.map KukaBody.body) t) {a : Op (KukaFact α)} {q1 q2 o g : α} (hq : .atConf q1 ∈ t) (ho : .atGrasp o g ∈ t)
    (ha : a.add = [.atConf q2]) (hd : a.del = [.atConf q1, .canMove]) {c : C} (hc : c = val.conf q2 ∨ .postInsert q2 ∈ p.start certified)
    (hr : ∀ b ∈ p.bodies, b.body = o → ∀ x, .kin b.body x g q2 ∈ p.start certified → Rests e.approach val b x (e.fk c * val.grasp g)) :
    SceneInv e val p certified w (a.apply t) ⟨c, Function.update w'.pose o (e.fk c * val.grasp g)⟩ := by
  have hconf : ∀ q, KukaFact.atConf q ∈ a.apply t → q = q2 := by
    obtain ⟨q0, _, hu⟩ := hi.consistent.conf
    intro q
    rw [mem_apply, ha, hd]
    simp only [List.mem_cons, List.not_mem_nil, or_false, KukaFact.atConf.injEq, reduceCtorEq]
    rintro (⟨h1, h2⟩ | h1)
    · exact absurd ((hu q h1).trans (hu q1 hq).symm) h2
    · exact h1
  have hother : ∀ f : KukaFact α, (∀ q, f ≠ .atConf q) → f ≠ .canMove → (f ∈ a.apply t ↔ f ∈ t) := by
    intro f h1 h2
    rw [mem_apply, ha, hd]
    simp [h1, h2]
  have hob := hi.held o g ho
  have hno : ∀ x, KukaFact.atPose o x ∉ t := by
    rcases hi.consistent.body o hob with ⟨_, h1⟩ | ⟨h1, _⟩
    · exact h1
    · exact absurd ho (h1 g)
  have hone : ∀ o' g', KukaFact.atGrasp o' g' ∈ t → o' = o ∧ g' = g := by
    rcases hi.consistent.hand with ⟨_, h1⟩ | ⟨_, o0, g0, _, hu⟩
    · exact absurd ho (h1 o g)
    · intro o' g' h1
      rw [(hu o' g' h1).1, (hu o' g' h1).2, (hu o g ho).1, (hu o g ho).2]; exact ⟨rfl, rfl⟩
  refine ⟨?_, ?_, ?_, ?_⟩
  · intro b hb x hx
    rw [hother _ (by simp) (by simp)] at hx
    have hne : b.body ≠ o := fun he => hno x (he ▸ hx)
    simpa [hne] using h.placed b hb x hx
  · intro b hb x g' q hg hq' hk
    rw [hother _ (by simp) (by simp)] at hg
    obtain ⟨h1, rfl⟩ := hone _ _ hg
    rw [hconf q hq'] at hk
    simpa [h1] using hr b hb h1 x hk
  · intro q hq'
    rw [hconf q hq']
    exact hc
  · intro o' ho'
    have hne : o' ≠ o := fun he => ho' (he ▸ hob)
    simpa [hne] using h.other o' ho'

/-- **C107** (partial). Every executable plan is translated into a command. After this command has been refined and executed, every object that is at a pose in the final state `s` of the plan is there: exactly if
it was not moved, one approach offset away if it was put down before its insertion, and two offsets away if it was inserted. Everything else is where it was, and if the plan reaches the goal the robot
is in its initial configuration. Missing: objects should be exactly at the pose, see C107_offset_false. -/
theorem C107_places_partial (p : KukaProblem α) (hd : KukaDistinct p) (hq0 : ∀ b ∈ p.bodies, ∀ sk post pre qpre, b.insert ≠ some (sk, post, pre, qpre, p.startConf)) (certified : Set (KukaFact α)) (hc : KukaCertified p certified)
    (e : Streams α P C J K F) (val : Values α P C J L) (hs : ∀ f ∈ certified, Streamed e val f) (hk : KinOk e val p) (between : C → C → List C) (hl : Library e val certified between)
    (w : Scene α P C) (hw : w.Initial p val) (plan : List (KukaAction α)) (s : Set (KukaFact α)) (h : Executes KukaAction.op (p.start certified) plan s) :
    ∃ items, postprocessPlan val.cmd (plan.map kukaItem) = .ok items ∧
      (∀ b ∈ p.bodies, ∀ x, .atPose b.body x ∈ s → Rests e.approach val b x ((execute e.fk w (refine between items)).pose b.body)) ∧
      (∀ o, o ∉ p.bodies.map KukaBody.body → (execute e.fk w (refine between items)).pose o = w.pose o) ∧
      ((∀ f ∈ p.goal, f ∈ s) → (execute e.fk w (refine between items)).conf = val.conf p.startConf) := by
  have hkin : ∀ {o x g q}, .kin o x g q ∈ p.start certified → e.fk (val.conf q) = e.approach * (val.pose x * (val.grasp g)⁻¹) := by
    intro o x g q h1
    rw [kuka_init hc (by simp [KukaFact.Certified])] at h1
    exact hk o x g q h1
  have key : ∀ (plan : List (KukaAction α)) (t : Set (KukaFact α)) (w' : Scene α P C), KukaInv (p.bodies.map KukaBody.body) t → (∀ f : KukaFact α, KukaStatic f → (f ∈ t ↔ f ∈ p.start certified)) →
      SceneInv e val p certified w t w' → Executes KukaAction.op t plan s →
      ∃ items, postprocessPlan val.cmd (plan.map kukaItem) = .ok items ∧ SceneInv e val p certified w s (execute e.fk w' (refine between items)) := by
    intro plan
    induction plan with
    | nil => intro t w' _ _ hw' he; rw [show s = t from he]; exact ⟨[], rfl, hw'⟩
    | cons a plan ih =>
      intro t w' hi hst hw' he
      have hst' : ∀ f : KukaFact α, KukaStatic f → (f ∈ a.op.apply t ↔ f ∈ p.start certified) := fun f hf => by rw [static_apply hf, hst f hf]
      have hi' := hi.step _ _ _ he.1
      have move : ∀ tr l, (kukaItem a).2.getLast? = some tr → (kukaItem a).1 ∈ ["move", "move_free", "move_holding", "move_insert"] → val.cmd tr = some l →
          SceneInv e val p certified w (a.op.apply t) (execute e.fk w' (refine between l)) →
          ∃ items, postprocessPlan val.cmd ((a :: plan).map kukaItem) = .ok items ∧ SceneInv e val p certified w s (execute e.fk w' (refine between items)) := by
        intro tr l h1 h2 h3 h4
        obtain ⟨items, h5, h6⟩ := ih _ _ hi' hst' h4 he.2
        refine ⟨l ++ items, ?_, by rwa [refined_append]⟩
        rw [List.map_cons]
        unfold postprocessPlan
        rw [if_pos h2, h1]
        simp [h3, h5, Except.map]
      have stay : (kukaItem a).1 ∉ ["move", "move_free", "move_holding", "move_insert"] → SceneInv e val p certified w (a.op.apply t) w' →
          ∃ items, postprocessPlan val.cmd ((a :: plan).map kukaItem) = .ok items ∧ SceneInv e val p certified w s (execute e.fk w' (refine between items)) := by
        intro h2 h4
        obtain ⟨items, h5, h6⟩ := ih _ _ hi' hst' h4 he.2
        refine ⟨items, ?_, h6⟩
        rw [List.map_cons]
        unfold postprocessPlan
        rw [if_neg h2, h5]
      have hap := he.1
      cases a with
      | moveFree q1 q2 tr =>
        have hm := start_motion trivial ((hst (.freeMotion q1 tr q2) trivial).1 (hap _ (by simp [KukaAction.op])))
        obtain ⟨path, h1, _, h3, h4⟩ := moves_path hl (hs _ hm)
        refine move tr _ rfl (by simp [kukaItem]) h1 ?_
        rw [refined_path e.fk hl.between w' e.robot e.joints [] (by simp) path _ h4 h3]
        have hno : ∀ o g, KukaFact.atGrasp o g ∉ t := by
          rcases hi.consistent.hand with ⟨_, h⟩ | ⟨h, _⟩
          · exact h
          · exact absurd (hap .handEmpty (by simp [KukaAction.op])) h
        obtain ⟨q0, _, hu⟩ := hi.consistent.conf
        have hq1 := hap (.atConf q1) (by simp [KukaAction.op])
        refine ⟨?_, ?_, ?_, hw'.other⟩
        · intro b hb x hx
          exact hw'.placed b hb x (by simpa [mem_apply, KukaAction.op] using hx)
        · intro b hb x g q hg
          exact absurd (by simpa [mem_apply, KukaAction.op] using hg) (hno b.body g)
        · intro q hq
          left
          rcases (by simpa [mem_apply, KukaAction.op] using hq : (KukaFact.atConf q ∈ t ∧ ¬ q = q1) ∨ q = q2) with h5 | rfl
          · exact absurd ((hu q h5.1).trans (hu q1 hq1).symm) h5.2
          · rfl
      | moveHolding q1 q2 o g tr =>
        have hm := start_motion trivial ((hst (.holdingMotion q1 tr q2 o g) trivial).1 (hap _ (by simp [KukaAction.op])))
        obtain ⟨path, h1, _, h3, h4⟩ := moves_path hl (hs _ hm)
        refine move tr _ rfl (by simp [kukaItem]) h1 ?_
        rw [refined_path e.fk hl.between w' e.robot e.joints [(o, val.grasp g)] (by simp) path _ h4 h3]
        refine hw'.carry hi (hap (.atConf q1) (by simp [KukaAction.op])) (hap (.atGrasp o g) (by simp [KukaAction.op])) rfl rfl (.inl rfl) ?_
        rintro b hb rfl x hx
        obtain ⟨sk, post, qpre, qpost, hi⟩ := kin_pre hd hc hb hx (hc _ hm).2.2.2
        refine (kin_kind hd hb hi e.approach val _).1 ?_
        rw [hkin hx]
        simp [mul_assoc]
      | moveInsert q1 q2 o g tr =>
        have hm := start_motion trivial ((hst (.insertMotion q1 tr q2 o g) trivial).1 (hap _ (by simp [KukaAction.op])))
        obtain ⟨path, a, z, h1, _, h3, h4, _, h5⟩ := inserts_path hl hm (hs _ hm)
        refine move tr _ rfl (by simp [kukaItem]) h1 ?_
        rw [refined_path e.fk hl.between w' e.robot e.joints [(o, val.grasp g)] (by simp) path _ h4 h3]
        have hpost := (hc _ hm).2.2.2.2
        refine hw'.carry hi (hap (.atConf q1) (by simp [KukaAction.op])) (hap (.atGrasp o g) (by simp [KukaAction.op])) rfl rfl (.inr hpost) ?_
        rintro b hb rfl x hx
        obtain ⟨sk, pre, qpre, qpost, hi⟩ := kin_post hd hc hb hx hpost
        refine (kin_kind hd hb hi e.approach val _).2 ?_
        rw [h5, hkin hx]
        simp [mul_assoc]
      | pick o x g q =>
        refine stay (by simp [kukaItem]) ⟨?_, ?_, ?_, hw'.other⟩
        · intro b hb y hy
          refine hw'.placed b hb y ?_
          simp only [mem_apply, KukaAction.op, List.mem_cons, List.not_mem_nil, or_false, reduceCtorEq, false_or] at hy
          exact hy.1
        · intro b hb y g' q' hg hq hy
          have hno : ∀ o g, KukaFact.atGrasp o g ∉ t := by
            rcases hi.consistent.hand with ⟨_, h⟩ | ⟨h, _⟩
            · exact h
            · exact absurd (hap .handEmpty (by simp [KukaAction.op])) h
          obtain ⟨h1, rfl⟩ : b.body = o ∧ g' = g := by simpa [mem_apply, KukaAction.op, hno] using hg
          subst h1
          have hq' : KukaFact.atConf q' ∈ t := by simpa [mem_apply, KukaAction.op] using hq
          obtain ⟨q0, _, hu⟩ := hi.consistent.conf
          obtain rfl : q' = q := (hu q' hq').trans (hu q (hap _ (by simp [KukaAction.op]))).symm
          have hkx := (hst (.kin b.body x g' q') trivial).1 (hap _ (by simp [KukaAction.op]))
          obtain rfl := kin_inj hd hc hb hkx hy
          exact hw'.placed b hb x (hap _ (by simp [KukaAction.op]))
        · intro q' hq
          exact hw'.conf q' (by simpa [mem_apply, KukaAction.op] using hq)
      | place o x g q =>
        have hkx := (hst (.kin o x g q) trivial).1 (hap _ (by simp [KukaAction.op]))
        have ho := hap (.atGrasp o g) (by simp [KukaAction.op])
        have hcq := hap (.atConf q) (by simp [KukaAction.op])
        refine stay (by simp [kukaItem]) ⟨?_, ?_, ?_, hw'.other⟩
        · intro b hb y hy
          rcases (by simpa [mem_apply, KukaAction.op] using hy : KukaFact.atPose b.body y ∈ t ∨ (b.body = o ∧ y = x)) with h1 | ⟨rfl, rfl⟩
          · exact hw'.placed b hb y h1
          · exact hw'.held b hb y g q ho hcq hkx
        · intro b hb y g' q' hg
          rcases hi'.consistent.hand with ⟨_, h⟩ | ⟨h, _⟩
          · exact absurd hg (h _ _)
          · exact absurd (by simp [mem_apply, KukaAction.op]) h
        · intro q' hq
          exact hw'.conf q' (by simpa [mem_apply, KukaAction.op] using hq)
      | clean o r x =>
        refine stay (by simp [kukaItem]) ⟨fun b hb y hy => hw'.placed b hb y (by simpa [mem_apply, KukaAction.op] using hy),
          fun b hb y g q hg hq hy => hw'.held b hb y g q (by simpa [mem_apply, KukaAction.op] using hg) (by simpa [mem_apply, KukaAction.op] using hq) hy,
          fun q hq => hw'.conf q (by simpa [mem_apply, KukaAction.op] using hq), hw'.other⟩
      | cook o r x =>
        refine stay (by simp [kukaItem]) ⟨fun b hb y hy => hw'.placed b hb y (by simpa [mem_apply, KukaAction.op] using hy),
          fun b hb y g q hg hq hy => hw'.held b hb y g q (by simpa [mem_apply, KukaAction.op] using hg) (by simpa [mem_apply, KukaAction.op] using hq) hy,
          fun q hq => hw'.conf q (by simpa [mem_apply, KukaAction.op] using hq), hw'.other⟩
  have hinv := KukaInv.start p certified hc hd.bodies
  have h0 : SceneInv e val p certified w (p.start certified) w := by
    refine ⟨?_, ?_, ?_, fun _ _ => rfl⟩
    · intro b hb x hx
      rw [kuka_init hc (by simp [KukaFact.Certified])] at hx
      obtain ⟨b', hb', h1, rfl⟩ : ∃ b' ∈ p.bodies, b.body = b'.body ∧ x = b'.pose := by simpa [KukaProblem.init, mem_facts_atPose] using hx
      obtain rfl : b = b' := List.inj_on_of_nodup_map hd.bodies hb hb' h1
      have hndp := (List.nodup_flatMap.1 hd.poses).1 b hb
      refine ⟨fun _ => hw.2 b hb, fun _ _ _ _ hi => ?_, fun _ _ _ _ hi => ?_⟩ <;> simp [hi] at hndp
    · intro b hb x g q hg
      rcases hinv.consistent.hand with ⟨_, hh⟩ | ⟨hh, _⟩
      · exact absurd hg (hh _ _)
      · exact absurd (.inl (by simp [KukaProblem.init])) hh
    · intro q hq
      left
      obtain ⟨q0, _, hu⟩ := hinv.consistent.conf
      rw [(hu q hq).trans (hu p.startConf (.inl (by simp [KukaProblem.init]))).symm]
      exact hw.1
  obtain ⟨items, h1, h2⟩ := key plan _ w hinv (fun _ _ => Iff.rfl) h0 h
  refine ⟨items, h1, h2.placed, h2.other, fun hg => ?_⟩
  rcases h2.conf p.startConf (hg _ (by simp [KukaProblem.goal])) with h3 | h3
  · exact h3
  · exfalso
    obtain ⟨b, hb, h4⟩ := start_postInsert hc h3
    obtain ⟨sk, post, pre, qpre, hi⟩ := (mem_facts_postInsert b _).1 h4
    exact hq0 b hb _ _ _ _ hi

/-- **C107** is false: unless twice the approach offset is the identity, which it is not (1 cm, kuka_primitives.py:79), an object that the plan leaves at its pose after insertion is somewhere else. -/
theorem C107_offset_false (p : KukaProblem α) (hd : KukaDistinct p) (hq0 : ∀ b ∈ p.bodies, ∀ sk post pre qpre, b.insert ≠ some (sk, post, pre, qpre, p.startConf)) (certified : Set (KukaFact α)) (hc : KukaCertified p certified)
    (e : Streams α P C J K F) (val : Values α P C J L) (hs : ∀ f ∈ certified, Streamed e val f) (hk : KinOk e val p) (between : C → C → List C) (hl : Library e val certified between)
    (w : Scene α P C) (hw : w.Initial p val) (plan : List (KukaAction α)) (s : Set (KukaFact α)) (h : Executes KukaAction.op (p.start certified) plan s) (ha : e.approach * e.approach ≠ 1)
    (b : KukaBody α) (hb : b ∈ p.bodies) (sk post pre qpre qpost : α) (hi : b.insert = some (sk, post, pre, qpre, qpost)) (hx : .atPose b.body post ∈ s) :
    ∃ items, postprocessPlan val.cmd (plan.map kukaItem) = .ok items ∧ (execute e.fk w (refine between items)).pose b.body ≠ val.pose post := by
  obtain ⟨items, h1, h2, _⟩ := C107_places_partial p hd hq0 certified hc e val hs hk between hl w hw plan s h
  refine ⟨items, h1, fun h3 => ha ?_⟩
  have := (h2 b hb post hx).after sk pre qpre qpost hi
  rw [h3, ← mul_assoc] at this
  exact (right_eq_mul.1 this)

/-- **C107** is false, and so is the connectedness of the trajectory (C72): the motion that brings the object to its insertion and the insertion do not fit together. The tool is at another place at the end of the one
than in the beginning of the other. -/
theorem C107_jump_false (certified : Set (KukaFact α)) (e : Streams α P C J K F) (val : Values α P C J L) (hs : ∀ f ∈ certified, Streamed e val f) (between : C → C → List C) (hl : Library e val certified between)
    (ha : e.approach ≠ 1) (q0 t' q1 t q2 o g : α) (h1 : .holdingMotion q0 t' q1 o g ∈ certified) (h2 : .insertMotion q1 t q2 o g ∈ certified) :
    ∃ bring ins a c, val.cmd t' = some [.path bring] ∧ val.cmd t = some [.path ins] ∧ bring.path.getLast? = some a ∧ ins.path.head? = some c ∧ e.fk a ≠ e.fk c := by
  obtain ⟨path, h3, _, h4, _⟩ := moves_path hl (hs _ h1)
  obtain ⟨path', a, z, h5, h6, _, _, h7, _⟩ := inserts_path hl h2 (hs _ h2)
  refine ⟨_, _, _, _, h3, h5, h4, h6, fun h8 => ha ?_⟩
  rw [h7] at h8
  exact right_eq_mul.1 h8

omit [DecidableEq J] in
/-- **C107** is false if inverse kinematics finds a configuration for the last pose of an insertion only: the path then has one configuration, nothing remains of it when it is refined, and neither the
object nor the robot moves. -/
theorem C107_single_false (attempt : ℕ → P → Option C) (approach grasp start goal : P) (path : List P) (l : List (P × C)) (h : insertion attempt approach grasp start path goal = .ok l)
    (hn : ∀ pose ∈ start :: path, ∀ k, attempt k (approach * (pose * grasp⁻¹)) = none) (hg : ∀ k, attempt k (approach * (goal * grasp⁻¹)) ≠ none)
    (fk : C → P) (between : C → C → List C) (w : Scene α P C) (r o : α) (j : J) :
    (∃ c, l = [(goal, c)]) ∧ execute fk w (refine between [(.path ⟨r, l.map Prod.snd, j, [(o, grasp)]⟩ : Item α C J P L)]) = w := by
  obtain ⟨c, h1, _⟩ := confPath_concat attempt approach grasp goal hg ([start] ++ path) 0
  rw [confPath_nil attempt approach grasp ([start] ++ path) 0 (by simpa using hn)] at h1
  rw [insertion, h1] at h
  simp only [List.nil_append, Except.ok.injEq] at h
  subst h
  exact ⟨⟨c, rfl⟩, rfl⟩

/-- **C107** (partial), what an insertion passes. The roadmap's checker judges whole batches; it accepts no other motions than those of `hi`. Then the held body passes, in this order and each one approach offset away,
poses of a path from its first to its last place of which every motion was accepted. Missing: the offset, and the poses for which inverse kinematics fails are left out, so that the body moves between
poses of the path that do not follow each other (C73_offset_false, C73_dropped_false). -/
theorem C107_insertion_partial (certified : Set (KukaFact α)) (e : Streams α P C J K F) [AddCommGroup K] (val : Values α P C J L) (hs : ∀ f ∈ certified, Streamed e val f) (between : C → C → List C)
    (hl : Library e val certified between) {q1 t q2 o g : α} (h : .insertMotion q1 t q2 o g ∈ certified) (hw : (e.roadmap o).Sound) {lo hi : P → P → Bool} (hb : (e.check o).Between lo hi) :
    ∃ (confs : List C) (path poses : List P), val.cmd t = some [.path ⟨e.robot, confs, e.joints, [(o, val.grasp g)]⟩] ∧
      path ≠ [] ∧ (e.fk (val.conf q1) * val.grasp g :: path ++ [e.fk (val.conf q2) * val.grasp g]).IsChain (fun x y => hi x y = true ∨ hi y x = true) ∧
      poses.Sublist (e.fk (val.conf q1) * val.grasp g :: path ++ [e.fk (val.conf q2) * val.grasp g]) ∧
      confs.map (fun c => e.fk c * val.grasp g) = poses.map (fun x => e.approach * x) ∧ confs ≠ [] := by
  obtain ⟨drawn, fuel, counts, path, l, h1, h2, h3⟩ := hs _ h
  obtain ⟨pts, h4, h5, h6⟩ := Anytime.planB_sound hw hb h1
  have : path = pts := by
    have := List.cons_inj_right _ |>.1 h4
    exact List.append_cancel_right this
  subst this
  obtain ⟨h7, h8, h9, -⟩ := C73_order_partial (e.attempt t) e.fk (fun k x c hc => hl.ik t k x c hc) e.approach (val.grasp g) _ _ path l h2
  refine ⟨_, path, l.map Prod.fst, h3, h5, h6, h8, ?_, by simpa using h9⟩
  rw [← h7, List.map_map]
  rfl

/-- Distance on a line. -/
def blockDist (a b : Multiplicative ℤ) : ℤ := (Multiplicative.toAdd a - Multiplicative.toAdd b).natAbs

/-- Poses on a line where every motion is accepted; the samples are 7, 10 and so on. -/
def freeBlock : Prm.World (Multiplicative ℤ) ℤ where
  check _ _ := true
  draw n := Multiplicative.ofAdd (4 + 3 * n)
  dist := blockDist
  knn := Prm.exactKnn blockDist
  knnUpdate S new k := Prm.exactKnn blockDist (S ++ new) k
  shortest := Prm.refShortest
  visits E _ := E

/-- A checker that accepts all motions and raises for the empty batch, as that of the code does. -/
def freeCheck : Prm.Batch (Multiplicative ℤ) := fun ms => if ms.isEmpty then .error .value else .ok (ms.map fun _ => true)

theorem freeBlock_plan : Anytime.planB freeBlock freeCheck (.ofAdd 6) (.ofAdd 9) 2 2 (fun x : ℚ => x * 3) 32 true 0 2 = some ([2], .ok (some [.ofAdd 6, .ofAdd 7, .ofAdd 9])) := by
  decide +kernel

/-- An arm on a line: the tool is where the joint says; motions go straight. -/
def railStreams : Streams ℕ (Multiplicative ℤ) ℤ Unit ℤ ℚ where
  robot := 0
  joints := ()
  fixed := []
  teleport := false
  approach := Multiplicative.ofAdd 1
  fk := Multiplicative.ofAdd
  sim := { collide := fun _ _ _ _ => false, robotCollide := fun _ _ _ => false, placement := fun _ _ _ _ => none, left := fun _ _ _ _ => 1, theta := fun _ => 0, sample := fun _ => 0
           invKin := fun _ c _ => (none, c), plan := fun w goal _ _ => some [w.conf, goal] }
  roadmap _ := freeBlock
  check _ := freeCheck
  attempt _ _ x := some (Multiplicative.toAdd x)
  minS := 2
  maxS := 2
  factor := 3

/-- Values for `oneBody`: the object goes from 0 to 5, and then to 8. -/
def railValues : Values ℕ (Multiplicative ℤ) ℤ Unit ℕ where
  conf q := if q = 1 then 1 else if q = 2 then 6 else if q = 3 then 9 else 0
  pose x := Multiplicative.ofAdd (if x = 11 then 8 else if x = 12 then 5 else 0)
  grasp _ := 1
  cmd t :=
    if t = 20 then some [.path ⟨0, [0, 1], (), []⟩]
    else if t = 21 then some [.path ⟨0, [1, 6], (), [(100, 1)]⟩]
    else if t = 22 then some [.path ⟨0, [7, 8, 10], (), [(100, 1)]⟩]
    else if t = 23 then some [.path ⟨0, [9, 0], (), []⟩] else none

/-- The plan of C72_nonvacuous. -/
def railPlan : List (KukaAction ℕ) :=
  [.moveFree 0 1 20, .pick 100 10 50 1, .moveHolding 1 2 100 50 21, .place 100 12 50 2, .pick 100 12 50 2, .moveInsert 2 3 100 50 22, .place 100 11 50 3, .clean 100 200 11, .moveFree 3 0 23]

/-- **C107** applies: its assumptions hold for `oneBody` and a plan that reaches the goal. At the end the object, planned to be at 8, is at 10. -/
theorem C107_nonvacuous : KukaDistinct oneBody ∧ (∀ b ∈ oneBody.bodies, ∀ sk post pre qpre, b.insert ≠ some (sk, post, pre, qpre, oneBody.startConf)) ∧ KukaCertified oneBody {f | f ∈ fourMotions} ∧
    (∀ f ∈ fourMotions, Streamed railStreams railValues f) ∧ KinOk railStreams railValues oneBody ∧ Library railStreams railValues {f | f ∈ fourMotions} (fun _ b => [b]) ∧
    (⟨0, fun _ => 1⟩ : Scene ℕ (Multiplicative ℤ) ℤ).Initial oneBody railValues ∧
    (∃ s, Executes KukaAction.op (oneBody.start {f | f ∈ fourMotions}) railPlan s ∧ (∀ f ∈ oneBody.goal, f ∈ s) ∧ .atPose 100 11 ∈ s) ∧
    ∃ items, postprocessPlan railValues.cmd (railPlan.map kukaItem) = .ok items ∧
      (execute railStreams.fk ⟨0, fun _ => 1⟩ (refine (fun _ b => [b]) items)).pose 100 = Multiplicative.ofAdd 10 ∧ railValues.pose 11 = Multiplicative.ofAdd 8 := by
  refine ⟨⟨by decide, by decide, by decide⟩, ?_, C72_nonvacuous.1, ?_, ?_, ⟨?_, ?_, ?_, ?_⟩, ⟨rfl, ?_⟩, ⟨_, ⟨?_, ?_, ?_, ?_, ?_, ?_, ?_, ?_, ?_, rfl⟩, ?_, ?_⟩, _, rfl, by decide, by decide⟩
  · simp [oneBody]
  · intro f hf
    simp only [fourMotions, List.mem_cons, List.not_mem_nil, or_false] at hf
    rcases hf with rfl | rfl | rfl | rfl
    · exact ⟨⟨fun _ => 1, 0, 0⟩, [], _, rfl, rfl⟩
    · exact ⟨⟨fun _ => 1, 0, 0⟩, [], _, rfl, rfl⟩
    · exact ⟨0, 2, [2], [Multiplicative.ofAdd 7], _, freeBlock_plan, rfl, rfl⟩
    · exact ⟨⟨fun _ => 1, 0, 0⟩, [], _, rfl, rfl⟩
  · intro o x g q h
    simp [KukaProblem.init, oneBody, KukaBody.facts] at h
    rcases h with ⟨rfl, rfl, rfl, rfl⟩ | ⟨rfl, rfl, rfl, rfl⟩ | ⟨rfl, rfl, rfl, rfl⟩ <;> decide
  · intro w goal obstacles held path h
    simp only [railStreams, Option.some.injEq] at h
    subst h
    simp
  · intro t k x c h
    simp only [railStreams, Option.some.injEq] at h
    subst h
    rfl
  · intro q1 t q2 o g _ q _ k
    simp [railStreams]
  · simp
  · intro b hb
    simp only [oneBody, List.mem_singleton] at hb
    subst hb
    rfl
  all_goals simp [Op.Applicable, KukaAction.op, mem_apply, KukaProblem.start, KukaProblem.init, KukaProblem.goal, oneBody, fourMotions, KukaBody.facts]

/-- The hypotheses of `C107_insertion_partial` about roadmap and checker are met in the same example. -/
theorem C107_insertion_nonvacuous : (railStreams.roadmap 100).Sound ∧ (railStreams.check 100).Between (fun _ _ => true) (fun _ _ => true) ∧ railStreams.check 100 [] = .error .value := by
  refine ⟨⟨?_, ?_, Prm.refShortest_correct, fun S k => Prm.exactKnn_true freeBlock S k, fun S new k => Prm.exactKnn_true freeBlock (S ++ new) k⟩, ⟨?_, ?_, ?_, fun _ _ _ _ _ _ _ _ => rfl⟩, rfl⟩
  · intro p q
    change blockDist p q = blockDist q p
    unfold blockDist
    omega
  · intro p q
    change 0 ≤ blockDist p q
    unfold blockDist
    omega
  · intro ms hms
    exact ⟨ms.map fun _ => true, by simp [railStreams, freeCheck, hms]⟩
  · intro ms rs h
    cases ms with
    | nil => cases h
    | cons m l => cases h; simp
  · intro ms rs i p q h hi _
    cases ms with
    | nil => cases h
    | cons m l =>
      cases h
      rw [List.getElem?_map, hi]
      rfl

end Verif.Props
