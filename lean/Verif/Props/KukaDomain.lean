import Mathlib.Data.List.Nodup
import Mathlib.Data.List.Pairwise
import Verif.Lemmas.Strips

/-! Properties of the kuka planning domain: C58, C70. -/

set_option linter.unusedSimpArgs false

namespace Verif.Props

open Verif.Strips Verif.Spec

variable {α : Type}

/-- The invariant of the domain. -/
structure KukaInv (bodies : List α) (s : Set (KukaFact α)) : Prop where
  consistent : KukaConsistent bodies s
  held : ∀ o g, .atGrasp o g ∈ s → o ∈ bodies
  placed : ∀ o p, .atPose o p ∈ s → o ∈ bodies

theorem KukaInv.move {bodies : List α} {s : Set (KukaFact α)} (h : KukaInv bodies s) (a : Op (KukaFact α)) (q1 q2 : α)
    (hq : .atConf q1 ∈ s) (ha : a.add = [.atConf q2]) (hd : a.del = [.atConf q1, .canMove]) : KukaInv bodies (a.apply s) := by
  obtain ⟨⟨⟨q, _, hqu⟩, hand, body⟩, held, placed⟩ := h
  obtain rfl := hqu q1 hq
  have hother : ∀ f : KukaFact α, (∀ q, f ≠ .atConf q) → f ≠ .canMove → (f ∈ a.apply s ↔ f ∈ s) := by
    intro f h1 h2
    rw [mem_apply, ha, hd]
    simp [h1, h2]
  have hg : ∀ o g, (KukaFact.atGrasp o g ∈ a.apply s ↔ KukaFact.atGrasp o g ∈ s) := fun o g => hother _ (by simp) (by simp)
  have hp : ∀ o p, (KukaFact.atPose o p ∈ a.apply s ↔ KukaFact.atPose o p ∈ s) := fun o g => hother _ (by simp) (by simp)
  have he : (KukaFact.handEmpty ∈ a.apply s ↔ KukaFact.handEmpty ∈ s) := hother _ (by simp) (by simp)
  refine ⟨⟨⟨q2, ?_, ?_⟩, ?_, ?_⟩, ?_, ?_⟩
  · rw [mem_apply, ha]; simp
  · intro q'
    rw [mem_apply, ha, hd]
    simp only [List.mem_cons, List.not_mem_nil, or_false, KukaFact.atConf.injEq, reduceCtorEq]
    rintro (⟨h, hn⟩ | h)
    · exact absurd (hqu q' h) hn
    · exact h
  · simpa only [hg, he] using hand
  · simpa only [hg, hp] using body
  · simpa only [hg] using held
  · simpa only [hp] using placed

theorem KukaInv.step (bodies : List α) (s : Set (KukaFact α)) (a : KukaAction α) (h : KukaInv bodies s) (ha : a.op.Applicable s) : KukaInv bodies (a.op.apply s) := by
  cases a with
  | moveFree q1 q2 t => exact h.move _ q1 q2 (ha _ (by simp [KukaAction.op])) rfl rfl
  | moveHolding q1 q2 o g t => exact h.move _ q1 q2 (ha _ (by simp [KukaAction.op])) rfl rfl
  | moveInsert q1 q2 o g t => exact h.move _ q1 q2 (ha _ (by simp [KukaAction.op])) rfl rfl
  | pick o p g q =>
    obtain ⟨⟨conf, hand, body⟩, held, placed⟩ := h
    simp only [Op.Applicable, KukaAction.op, List.mem_cons, List.not_mem_nil, or_false, forall_eq_or_imp, forall_eq] at ha
    obtain ⟨h1, h2, h3, h4⟩ := ha
    have hno : ∀ o g, KukaFact.atGrasp o g ∉ s := by
      rcases hand with ⟨_, h⟩ | ⟨h, _⟩
      · exact h
      · exact absurd h3 h
    have hp : ∀ p', KukaFact.atPose o p' ∈ s → p' = p := by
      rcases body o (placed o p h2) with ⟨⟨g, h⟩, _⟩ | ⟨_, p0, h, hu⟩
      · exact absurd h (hno o g)
      · intro p' hp'; rw [hu p' hp', hu p h2]
    refine ⟨⟨?_, .inr ⟨?_, o, g, ?_, ?_⟩, ?_⟩, ?_, ?_⟩ <;> simp only [mem_apply, KukaAction.op, List.mem_cons, List.not_mem_nil, or_false,
      KukaFact.atConf.injEq, KukaFact.atGrasp.injEq, KukaFact.atPose.injEq, reduceCtorEq, false_or, not_false_eq_true, and_true, or_true, true_or,
      not_true_eq_false, and_false]
    · exact conf
    · rintro o' g' (h | h)
      · exact absurd h (hno o' g')
      · exact h
    · intro o' ho'
      by_cases he : o' = o
      · subst he
        left
        refine ⟨⟨g, .inr ⟨rfl, rfl⟩⟩, ?_⟩
        rintro p' ⟨h, hn⟩
        exact hn ⟨rfl, hp p' h⟩
      · right
        rcases body o' ho' with ⟨⟨g', h⟩, _⟩ | ⟨h, p0, h0, hu⟩
        · exact absurd h (hno o' g')
        · exact ⟨fun g' hc => hc.elim (h g') fun hc => he hc.1, p0, ⟨h0, fun hc => he hc.1⟩, fun p' h' => hu p' h'.1⟩
    · rintro o' g' (h | ⟨rfl, rfl⟩)
      · exact held o' g' h
      · exact placed _ _ h2
    · rintro o' p' ⟨h, _⟩
      exact placed o' p' h
  | place o p g q =>
    obtain ⟨⟨conf, hand, body⟩, held, placed⟩ := h
    simp only [Op.Applicable, KukaAction.op, List.mem_cons, List.not_mem_nil, or_false, forall_eq_or_imp, forall_eq] at ha
    obtain ⟨h1, h2, h3⟩ := ha
    have hone : ∀ o' g', KukaFact.atGrasp o' g' ∈ s → o' = o ∧ g' = g := by
      rcases hand with ⟨_, h⟩ | ⟨_, o0, g0, _, hu⟩
      · exact absurd h2 (h o g)
      · intro o' g' h'
        rw [(hu o' g' h').1, (hu o' g' h').2, (hu o g h2).1, (hu o g h2).2]; exact ⟨rfl, rfl⟩
    have hp : ∀ p', KukaFact.atPose o p' ∉ s := by
      rcases body o (held o g h2) with ⟨_, h⟩ | ⟨h, _⟩
      · exact h
      · exact absurd h2 (h g)
    refine ⟨⟨?_, .inl ⟨?_, ?_⟩, ?_⟩, ?_, ?_⟩ <;> simp only [mem_apply, KukaAction.op, List.mem_cons, List.not_mem_nil, or_false,
      KukaFact.atConf.injEq, KukaFact.atGrasp.injEq, KukaFact.atPose.injEq, reduceCtorEq, false_or, not_false_eq_true, and_true, or_true, true_or,
      not_true_eq_false, and_false]
    · exact conf
    · rintro o' g' ⟨h, hn⟩
      exact hn (hone o' g' h)
    · intro o' ho'
      right
      refine ⟨fun g' hc => hc.2 (hone o' g' hc.1), ?_⟩
      by_cases he : o' = o
      · subst he
        refine ⟨p, .inr ⟨rfl, rfl⟩, ?_⟩
        rintro p' (h | ⟨_, rfl⟩)
        · exact absurd h (hp p')
        · rfl
      · rcases body o' ho' with ⟨⟨g', h⟩, _⟩ | ⟨_, p0, h0, hu⟩
        · exact absurd (hone o' g' h).1 he
        · refine ⟨p0, .inl h0, ?_⟩
          rintro p' (h' | ⟨rfl, _⟩)
          · exact hu p' h'
          · exact absurd rfl he
    · rintro o' g' ⟨h, _⟩
      exact held o' g' h
    · rintro o' p' (h | ⟨rfl, rfl⟩)
      · exact placed o' p' h
      · exact held _ _ h2
  | clean o r p =>
    obtain ⟨⟨conf, hand, body⟩, held, placed⟩ := h
    refine ⟨⟨?_, ?_, ?_⟩, ?_, ?_⟩ <;> simp only [mem_apply, KukaAction.op, List.mem_cons, List.not_mem_nil, or_false, reduceCtorEq, not_false_eq_true, and_true]
    all_goals assumption
  | cook o r p =>
    obtain ⟨⟨conf, hand, body⟩, held, placed⟩ := h
    refine ⟨⟨?_, ?_, ?_⟩, ?_, ?_⟩ <;> simp only [mem_apply, KukaAction.op, List.mem_cons, List.not_mem_nil, or_false, reduceCtorEq, not_false_eq_true, and_true]
    all_goals assumption

/-- A fact that no action adds or removes. -/
def KukaStatic : KukaFact α → Prop
  | .atPose .. | .atGrasp .. | .handEmpty | .atConf .. | .canMove | .cleaned .. | .cooked .. => False
  | _ => True

theorem static_apply {f : KukaFact α} (hf : KukaStatic f) (a : KukaAction α) (s : Set (KukaFact α)) : f ∈ a.op.apply s ↔ f ∈ s := by
  cases f <;> simp [KukaStatic] at hf <;> cases a <;> simp [mem_apply, KukaAction.op]

theorem static_executes {f : KukaFact α} (hf : KukaStatic f) {plan : List (KukaAction α)} {s s' : Set (KukaFact α)}
    (h : Executes KukaAction.op s plan s') : f ∈ s' ↔ f ∈ s :=
  Executes.invariant (I := fun t => f ∈ t ↔ f ∈ s) (fun t a ht _ => by rw [← ht]; exact static_apply hf a t) Iff.rfl h

/-- The certified facts come from the streams. -/
def KukaCertified (p : KukaProblem α) (certified : Set (KukaFact α)) : Prop := ∀ f ∈ certified, f.Certified (p.start certified)

theorem kuka_init {p : KukaProblem α} {certified : Set (KukaFact α)} (hc : KukaCertified p certified) {f : KukaFact α}
    (hf : ∀ known, ¬ f.Certified known) : f ∈ p.start certified ↔ f ∈ p.init :=
  ⟨fun h => h.elim id fun h' => absurd (hc f h') (hf _), .inl⟩

theorem mem_facts_atPose (b : KukaBody α) (o x : α) : KukaFact.atPose o x ∈ b.facts ↔ o = b.body ∧ x = b.pose := by
  unfold KukaBody.facts
  rcases hb : b.insert with _ | ⟨sk, post, pre, qpre, qpost⟩ <;> simp [List.mem_append]

theorem mem_facts_kin (b : KukaBody α) (o x g q : α) : KukaFact.kin o x g q ∈ b.facts ↔ o = b.body ∧ g = b.grasp ∧
    ((x = b.pose ∧ q = b.conf) ∨ ∃ sk post pre qpre qpost, b.insert = some (sk, post, pre, qpre, qpost) ∧
      ((x = pre ∧ q = qpre) ∨ (x = post ∧ q = qpost))) := by
  unfold KukaBody.facts
  rcases hb : b.insert with _ | ⟨sk, post, pre, qpre, qpost⟩
  · simp [List.mem_append]; tauto
  · simp [List.mem_append]; tauto

theorem mem_facts_preInsert (b : KukaBody α) (q : α) : KukaFact.preInsert q ∈ b.facts ↔
    ∃ sk post pre qpost, b.insert = some (sk, post, pre, q, qpost) := by
  unfold KukaBody.facts
  rcases hb : b.insert with _ | ⟨sk, post, pre, qpre, qpost⟩
  · simp [List.mem_append]
  · simp [List.mem_append]; tauto

theorem mem_facts_supported (b : KukaBody α) (o x r : α) (h : KukaFact.supported o x r ∈ b.facts) : o = b.body ∧
    (x = b.pose ∨ ∃ sk post pre qpre qpost, b.insert = some (sk, post, pre, qpre, qpost) ∧ x = post) := by
  unfold KukaBody.facts at h
  rcases hb : b.insert with _ | ⟨sk, post, pre, qpre, qpost⟩
  · simp [List.mem_append, hb] at h; tauto
  · simp [List.mem_append, hb] at h ⊢; tauto

theorem KukaInv.start (p : KukaProblem α) (certified : Set (KukaFact α)) (hc : KukaCertified p certified)
    (hn : (p.bodies.map KukaBody.body).Nodup) : KukaInv (p.bodies.map KukaBody.body) (p.start certified) := by
  have hconf : ∀ q, KukaFact.atConf q ∈ p.start certified ↔ q = p.startConf := by
    intro q
    rw [kuka_init hc (by simp [KukaFact.Certified])]
    have : ∀ b : KukaBody α, KukaFact.atConf q ∉ b.facts := fun b => by
      unfold KukaBody.facts; rcases hb : b.insert with _ | ⟨sk, post, pre, qpre, qpost⟩ <;> simp [List.mem_append]
    simp [KukaProblem.init, this]
  have hgrasp : ∀ o g, KukaFact.atGrasp o g ∉ p.start certified := by
    intro o g
    rw [kuka_init hc (by simp [KukaFact.Certified])]
    have : ∀ b : KukaBody α, KukaFact.atGrasp o g ∉ b.facts := fun b => by
      unfold KukaBody.facts; rcases hb : b.insert with _ | ⟨sk, post, pre, qpre, qpost⟩ <;> simp [List.mem_append]
    simp [KukaProblem.init, this]
  have hempty : KukaFact.handEmpty ∈ p.start certified := .inl (by simp [KukaProblem.init])
  have hpose : ∀ o x, KukaFact.atPose o x ∈ p.start certified ↔ ∃ b ∈ p.bodies, o = b.body ∧ x = b.pose := by
    intro o x
    rw [kuka_init hc (by simp [KukaFact.Certified])]
    simp [KukaProblem.init, mem_facts_atPose]
  refine ⟨⟨⟨p.startConf, (hconf _).2 rfl, fun q h => (hconf q).1 h⟩, .inl ⟨hempty, hgrasp⟩, ?_⟩, fun o g h => absurd h (hgrasp o g), ?_⟩
  · intro o ho
    right
    obtain ⟨b, hb, rfl⟩ := List.mem_map.1 ho
    refine ⟨hgrasp _, b.pose, (hpose _ _).2 ⟨b, hb, rfl, rfl⟩, fun x hx => ?_⟩
    obtain ⟨b', hb', h1, rfl⟩ := (hpose _ _).1 hx
    rw [List.inj_on_of_nodup_map hn hb hb' h1]
  · intro o x h
    obtain ⟨b, hb, rfl, _⟩ := (hpose o x).1 h
    exact List.mem_map.2 ⟨b, hb, rfl⟩

/-- **C58**. Every state reachable by an executable plan is consistent. -/
theorem C58_consistent (p : KukaProblem α) (certified : Set (KukaFact α)) (hc : KukaCertified p certified)
    (hn : (p.bodies.map KukaBody.body).Nodup) (plan : List (KukaAction α)) (s : Set (KukaFact α))
    (h : Executes KukaAction.op (p.start certified) plan s) : KukaConsistent (p.bodies.map KukaBody.body) s :=
  (Executes.invariant (I := KukaInv (p.bodies.map KukaBody.body)) (fun s a hs ha => hs.step _ s a ha) (KukaInv.start p certified hc hn) h).consistent

theorem no_canMove {plan : List (KukaAction α)} {s s' : Set (KukaFact α)} (hs : .canMove ∉ s) (h : Executes KukaAction.op s plan s')
    (hp : ∀ a ∈ plan, ¬ IsTransfer a) : (∀ a ∈ plan, ¬ IsMove a) ∧ .canMove ∉ s' := by
  induction plan generalizing s with
  | nil => rw [show s' = s from h]; exact ⟨by simp, hs⟩
  | cons a plan ih =>
    have hm : ¬ IsMove a := by
      intro hm
      apply hs
      cases a <;> simp [IsMove] at hm <;> exact h.1 _ (by simp [KukaAction.op])
    have hs' : KukaFact.canMove ∉ a.op.apply s := by
      have ht := hp a (by simp)
      cases a <;> simp [IsTransfer] at ht <;> simp [mem_apply, KukaAction.op, hs]
    obtain ⟨h1, h2⟩ := ih hs' h.2 fun b hb => hp b (by simp [hb])
    exact ⟨by simpa using ⟨hm, h1⟩, h2⟩

/-- **C58**: between two moves of an executable plan there is a pick or a place. -/
theorem C58_moves (s s' : Set (KukaFact α)) (before between after : List (KukaAction α)) (m1 m2 : KukaAction α) (h1 : IsMove m1) (h2 : IsMove m2)
    (h : Executes KukaAction.op s (before ++ m1 :: between ++ m2 :: after) s') : ∃ a ∈ between, IsTransfer a := by
  by_contra hc
  push Not at hc
  rw [List.append_assoc, Executes.append] at h
  obtain ⟨t, _, h⟩ := h
  rw [List.cons_append] at h
  obtain ⟨_, h⟩ := h
  rw [Executes.append] at h
  obtain ⟨u, h3, h4⟩ := h
  have hs : KukaFact.canMove ∉ m1.op.apply t := by
    cases m1 <;> simp [IsMove] at h1 <;> simp [mem_apply, KukaAction.op]
  have := (no_canMove hs h3 hc).2
  apply this
  cases m2 <;> simp [IsMove] at h2 <;> exact h4.1 _ (by simp [KukaAction.op])

/-! ### Where objects are put down -/

/-- What the actions taken so far imply. -/
structure KukaHistory (p : KukaProblem α) (plan : List (KukaAction α)) (s : Set (KukaFact α)) : Prop where
  grasped : ∀ o g q, .atGrasp o g ∈ s → .canMove ∈ s → .atConf q ∈ s → ∃ x, .kin o x g q ∈ s ∧ .pick o x g q ∈ plan
  placed : ∀ o x, .atPose o x ∈ s → (∃ b ∈ p.bodies, o = b.body ∧ x = b.pose) ∨ ∃ g q, .place o x g q ∈ plan
  picked : ∀ o x g q, .pick o x g q ∈ plan → (∃ b ∈ p.bodies, o = b.body ∧ x = b.pose) ∨ ∃ g q, .place o x g q ∈ plan
  inv : KukaInv (p.bodies.map KukaBody.body) s

theorem KukaHistory.step (p : KukaProblem α) (plan : List (KukaAction α)) (s : Set (KukaFact α)) (a : KukaAction α) (h : KukaHistory p plan s)
    (ha : a.op.Applicable s) : KukaHistory p (plan ++ [a]) (a.op.apply s) := by
  have hinv := h.inv.step _ s a ha
  have later : ∀ {o x : α}, ((∃ b ∈ p.bodies, o = b.body ∧ x = b.pose) ∨ ∃ g q, KukaAction.place o x g q ∈ plan) →
      ((∃ b ∈ p.bodies, o = b.body ∧ x = b.pose) ∨ ∃ g q, KukaAction.place o x g q ∈ plan ++ [a]) := fun h =>
    h.imp id fun ⟨g, q, hp⟩ => ⟨g, q, by simp [hp]⟩
  -- actions that change neither poses nor grasps
  have quiet : (∀ o x, KukaFact.atPose o x ∈ a.op.apply s ↔ KukaFact.atPose o x ∈ s) → (∀ o x g q, a ≠ .pick o x g q) →
      (∀ o g q, .atGrasp o g ∈ a.op.apply s → .canMove ∈ a.op.apply s → .atConf q ∈ a.op.apply s →
        ∃ x, KukaFact.kin o x g q ∈ a.op.apply s ∧ .pick o x g q ∈ plan ++ [a]) → KukaHistory p (plan ++ [a]) (a.op.apply s) := by
    intro hpose hnp hg
    refine ⟨hg, fun o x hx => later (h.placed o x ((hpose o x).1 hx)), ?_, hinv⟩
    intro o x g q hp
    rw [List.mem_append, List.mem_singleton] at hp
    rcases hp with hp | hp
    · exact later (h.picked o x g q hp)
    · exact absurd hp.symm (hnp o x g q)
  cases a with
  | moveFree q1 q2 t =>
    exact quiet (fun o x => by simp [mem_apply, KukaAction.op]) (by simp) fun o g q _ hm => absurd hm (by simp [mem_apply, KukaAction.op])
  | moveHolding q1 q2 o g t =>
    exact quiet (fun o x => by simp [mem_apply, KukaAction.op]) (by simp) fun o g q _ hm => absurd hm (by simp [mem_apply, KukaAction.op])
  | moveInsert q1 q2 o g t =>
    exact quiet (fun o x => by simp [mem_apply, KukaAction.op]) (by simp) fun o g q _ hm => absurd hm (by simp [mem_apply, KukaAction.op])
  | clean o r x =>
    refine quiet (fun o x => by simp [mem_apply, KukaAction.op]) (by simp) fun o g q => ?_
    intro h1 h2 h3
    obtain ⟨x, hx, hp⟩ := h.grasped o g q (by simpa [mem_apply, KukaAction.op] using h1) (by simpa [mem_apply, KukaAction.op] using h2)
      (by simpa [mem_apply, KukaAction.op] using h3)
    exact ⟨x, by simpa [mem_apply, KukaAction.op] using hx, by simp [hp]⟩
  | cook o r x =>
    refine quiet (fun o x => by simp [mem_apply, KukaAction.op]) (by simp) fun o g q => ?_
    intro h1 h2 h3
    obtain ⟨x, hx, hp⟩ := h.grasped o g q (by simpa [mem_apply, KukaAction.op] using h1) (by simpa [mem_apply, KukaAction.op] using h2)
      (by simpa [mem_apply, KukaAction.op] using h3)
    exact ⟨x, by simpa [mem_apply, KukaAction.op] using hx, by simp [hp]⟩
  | pick o x g q =>
    have hkin := ha (.kin o x g q) (by simp [KukaAction.op])
    have hat := ha (.atPose o x) (by simp [KukaAction.op])
    have hempty := ha .handEmpty (by simp [KukaAction.op])
    have hq := ha (.atConf q) (by simp [KukaAction.op])
    refine ⟨?_, ?_, ?_, hinv⟩
    · intro o' g' q' h1 _ h3
      have hno : KukaFact.atGrasp o' g' ∉ s := by
        rcases h.inv.consistent.hand with ⟨_, hh⟩ | ⟨hh, _⟩
        · exact hh o' g'
        · exact absurd hempty hh
      obtain ⟨rfl, rfl⟩ : o' = o ∧ g' = g := by simpa [mem_apply, KukaAction.op, hno] using h1
      have h3' : KukaFact.atConf q' ∈ s := by simpa [mem_apply, KukaAction.op] using h3
      obtain ⟨q0, _, hu⟩ := h.inv.consistent.conf
      obtain rfl : q' = q := by rw [hu q' h3', hu q hq]
      exact ⟨x, by simpa [mem_apply, KukaAction.op] using hkin, by simp⟩
    · intro o' x' hx'
      have : KukaFact.atPose o' x' ∈ s := by
        rcases hx' with ⟨h', _⟩ | h'
        · exact h'
        · simp [KukaAction.op] at h'
      exact later (h.placed o' x' this)
    · intro o' x' g' q' hp
      rw [List.mem_append, List.mem_singleton] at hp
      rcases hp with hp | hp
      · exact later (h.picked o' x' g' q' hp)
      · obtain ⟨rfl, rfl, rfl, rfl⟩ : o' = o ∧ x' = x ∧ g' = g ∧ q' = q := by simpa using hp
        exact later (h.placed _ _ hat)
  | place o x g q =>
    have hempty : KukaFact.handEmpty ∈ (KukaAction.place o x g q).op.apply s := by simp [mem_apply, KukaAction.op]
    refine ⟨?_, ?_, ?_, hinv⟩
    · intro o' g' q' h1
      rcases hinv.consistent.hand with ⟨_, hh⟩ | ⟨hh, _⟩
      · exact absurd h1 (hh o' g')
      · exact absurd hempty hh
    · rintro o' x' (⟨h', _⟩ | h')
      · exact later (h.placed o' x' h')
      · obtain ⟨rfl, rfl⟩ : o' = o ∧ x' = x := by simpa [KukaAction.op] using h'
        exact .inr ⟨g, q, by simp⟩
    · intro o' x' g' q' hp
      rw [List.mem_append, List.mem_singleton] at hp
      rcases hp with hp | hp
      · exact later (h.picked o' x' g' q' hp)
      · cases hp

theorem KukaHistory.start (p : KukaProblem α) (certified : Set (KukaFact α)) (hc : KukaCertified p certified)
    (hn : (p.bodies.map KukaBody.body).Nodup) : KukaHistory p [] (p.start certified) := by
  have hinv := KukaInv.start p certified hc hn
  refine ⟨?_, ?_, by simp, hinv⟩
  · intro o g q h
    rcases hinv.consistent.hand with ⟨_, hh⟩ | ⟨hh, _⟩
    · exact absurd h (hh o g)
    · exact absurd (.inl (by simp [KukaProblem.init])) hh
  · intro o x h
    rw [kuka_init hc (by simp [KukaFact.Certified])] at h
    left
    simpa [KukaProblem.init, mem_facts_atPose] using h

theorem start_kin {p : KukaProblem α} {certified : Set (KukaFact α)} (hc : KukaCertified p certified) {o x g q : α}
    (h : .kin o x g q ∈ p.start certified) : ∃ b ∈ p.bodies, .kin o x g q ∈ b.facts := by
  rw [kuka_init hc (by simp [KukaFact.Certified])] at h
  simpa [KukaProblem.init] using h

theorem start_preInsert {p : KukaProblem α} {certified : Set (KukaFact α)} (hc : KukaCertified p certified) {q : α}
    (h : .preInsert q ∈ p.start certified) : ∃ b ∈ p.bodies, .preInsert q ∈ b.facts := by
  rw [kuka_init hc (by simp [KukaFact.Certified])] at h
  simpa [KukaProblem.init] using h

theorem start_supported {p : KukaProblem α} {certified : Set (KukaFact α)} (hc : KukaCertified p certified) {o x r : α}
    (h : .supported o x r ∈ p.start certified) : ∃ b ∈ p.bodies, .supported o x r ∈ b.facts := by
  rw [kuka_init hc (by simp [KukaFact.Certified])] at h
  simpa [KukaProblem.init] using h

/-- Entries of different bodies in a list without repetition are different; so are different entries of one body. -/
theorem flatMap_inj {β : Type} {l : List β} {f : β → List α} (h : (l.flatMap f).Nodup) {a b : β} (ha : a ∈ l) (hb : b ∈ l) {x : α}
    (hxa : x ∈ f a) (hxb : x ∈ f b) : a = b := by
  by_contra hne
  rw [List.nodup_flatMap] at h
  have : Std.Symm (Function.onFun List.Disjoint f) := ⟨fun _ _ h _ h1 h2 => h h2 h1⟩
  exact h.2.forall ha hb hne hxa hxb

/-- **C70** (negation). The domain never lets an object be carried to its insertion start and inserted in one go: in every executable
plan an insertion of an object is preceded by putting it down at its pre-insertion pose, and nothing supports the object there. -/
theorem C70_unsupported_false (p : KukaProblem α) (hd : KukaDistinct p) (certified : Set (KukaFact α)) (hc : KukaCertified p certified)
    (plan : List (KukaAction α)) (q1 q2 o g t : α) (s : Set (KukaFact α))
    (h : Executes KukaAction.op (p.start certified) (plan ++ [.moveInsert q1 q2 o g t]) s) :
    ∃ b ∈ p.bodies, b.body = o ∧ ∃ sink post pre qpost, b.insert = some (sink, post, pre, q1, qpost) ∧
      (∃ g' q', .place o pre g' q' ∈ plan) ∧ ∀ r, .supported o pre r ∉ s := by
  obtain ⟨u, h1, h2⟩ := Executes.append.1 h
  have hh := Executes.history (I := KukaHistory p) (KukaHistory.start p certified hc hd.bodies) (fun pl s' a => KukaHistory.step p pl s' a) h1
  have ha := h2.1
  have hm := ha (.insertMotion q1 t q2 o g) (by simp [KukaAction.op])
  have hm := (static_executes (f := .insertMotion q1 t q2 o g) trivial h1).1 hm
  have hpre : .preInsert q1 ∈ p.start certified := by
    rcases hm with hm | hm
    · exfalso
      have : ∀ b : KukaBody α, KukaFact.insertMotion q1 t q2 o g ∉ b.facts := fun b => by
        unfold KukaBody.facts; rcases hb : b.insert with _ | ⟨sk, post, pre, qpre, qpost⟩ <;> simp [List.mem_append]
      simp [KukaProblem.init, this] at hm
    · exact (hc _ hm).2.2.2.1
  obtain ⟨x, hkin, hpick⟩ := hh.grasped o g q1 (ha _ (by simp [KukaAction.op])) (ha _ (by simp [KukaAction.op])) (ha _ (by simp [KukaAction.op]))
  have hkin := (static_executes (f := .kin o x g q1) trivial h1).1 hkin
  obtain ⟨b, hb, hbk⟩ := start_kin hc hkin
  obtain ⟨b', hb', hbp⟩ := start_preInsert hc hpre
  rw [mem_facts_preInsert] at hbp
  obtain ⟨sk, post, pre, qpost, hins⟩ := hbp
  rw [mem_facts_kin] at hbk
  obtain ⟨rfl, _, hcases⟩ := hbk
  have hq' : q1 ∈ b'.conf :: (match b'.insert with | none => [] | some (_, _, _, qpre, qpost) => [qpre, qpost]) := by rw [hins]; simp
  have hq : q1 ∈ b.conf :: (match b.insert with | none => [] | some (_, _, _, qpre, qpost) => [qpre, qpost]) := by
    rcases hcases with ⟨_, rfl⟩ | ⟨_, _, _, _, _, hi, ⟨_, rfl⟩ | ⟨_, rfl⟩⟩
    · simp
    · rw [hi]; simp
    · rw [hi]; simp
  have hbb : b = b' := flatMap_inj hd.confs hb hb' hq hq'
  subst hbb
  have hnd := (List.nodup_flatMap.1 hd.confs).1 b hb
  have hndp := (List.nodup_flatMap.1 hd.poses).1 b hb
  simp only [hins, List.nodup_cons, List.mem_cons, List.not_mem_nil, or_false, not_or, not_false_eq_true, List.nodup_nil, and_true] at hnd hndp
  have hx : x = pre := by
    rcases hcases with ⟨_, h3⟩ | ⟨_, _, _, _, _, hi, ⟨h3, _⟩ | ⟨_, h3⟩⟩
    · exact absurd h3.symm hnd.1.1
    · rw [hins] at hi
      simp only [Option.some.injEq, Prod.mk.injEq] at hi
      rw [h3, hi.2.2.1]
    · rw [hins] at hi
      simp only [Option.some.injEq, Prod.mk.injEq] at hi
      rw [← hi.2.2.2.2] at h3
      exact absurd h3 hnd.2
  subst hx
  refine ⟨b, hb, rfl, sk, post, x, qpost, hins, ?_, ?_⟩
  · rcases hh.picked _ _ _ _ hpick with ⟨b2, hb2, h3, h4⟩ | h3
    · exfalso
      obtain rfl : b = b2 := List.inj_on_of_nodup_map hd.bodies hb hb2 h3
      exact hndp.1.2 h4.symm
    · exact h3
  · intro r hr
    have hr := (static_executes (f := .supported b.body x r) trivial h).1 hr
    obtain ⟨b2, hb2, hs⟩ := start_supported hc hr
    obtain ⟨h3, h4⟩ := mem_facts_supported b2 _ _ _ hs
    obtain rfl : b = b2 := List.inj_on_of_nodup_map hd.bodies hb hb2 h3
    rcases h4 with h4 | ⟨_, _, _, _, _, hi, h4⟩
    · exact hndp.1.2 h4.symm
    · rw [hins] at hi
      simp only [Option.some.injEq, Prod.mk.injEq] at hi
      rw [← hi.2.1] at h4
      exact hndp.2 h4.symm

/-- One object and one sink. -/
def oneBody : KukaProblem ℕ := ⟨0, [⟨100, 50, 10, 1, [(200, false)], some (200, 11, 12, 2, 3)⟩], [200], [201]⟩

/-- All motions between known configurations. -/
def oneCertified : Set (KukaFact ℕ) := {f | f.Certified {f | f ∈ oneBody.init}}

/-- **C58** and **C70** apply: a plan that fetches, inserts and cleans the object reaches the goal. -/
theorem C70_nonvacuous : KukaCertified oneBody oneCertified ∧ KukaDistinct oneBody ∧
    ∃ s, Executes KukaAction.op (oneBody.start oneCertified)
      [.moveFree 0 1 9, .pick 100 10 50 1, .moveHolding 1 2 100 50 9, .place 100 12 50 2, .pick 100 12 50 2, .moveInsert 2 3 100 50 9,
        .place 100 11 50 3, .clean 100 200 11, .moveFree 3 0 9] s ∧ ∀ f ∈ oneBody.goal, f ∈ s := by
  refine ⟨?_, ⟨by decide, by decide, by decide⟩, _, ⟨?_, ?_, ?_, ?_, ?_, ?_, ?_, ?_, ?_, rfl⟩, ?_⟩
  · intro f hf
    have mono : ∀ known known' : Set (KukaFact ℕ), (∀ f ∈ known, f ∈ known') → f.Certified known → f.Certified known' := by
      intro k k' hk
      cases f <;> simp only [KukaFact.Certified, imp_self]
      · rintro ⟨a, b⟩; exact ⟨hk _ a, hk _ b⟩
      · rintro ⟨a, b, c, d⟩; exact ⟨hk _ a, hk _ b, hk _ c, hk _ d⟩
      · rintro ⟨a, b, c, d, e⟩; exact ⟨hk _ a, hk _ b, hk _ c, hk _ d, hk _ e⟩
    exact mono _ _ (fun _ h => .inl h) hf
  all_goals simp [Op.Applicable, KukaAction.op, mem_apply, KukaProblem.start, KukaProblem.init, KukaProblem.goal, oneBody, oneCertified,
    KukaFact.Certified, KukaBody.facts]

/-- **C58** applies to the same plan: its third state has the object in the hand. -/
theorem C58_nonvacuous : ∃ s, Executes KukaAction.op (oneBody.start oneCertified) [.moveFree 0 1 9, .pick 100 10 50 1] s ∧ .atGrasp 100 50 ∈ s ∧
    KukaConsistent [100] s := by
  have h : Executes KukaAction.op (oneBody.start oneCertified) [.moveFree 0 1 9, .pick 100 10 50 1]
      ((KukaAction.pick 100 10 50 1).op.apply ((KukaAction.moveFree 0 1 9).op.apply (oneBody.start oneCertified))) := by
    refine ⟨?_, ?_, rfl⟩ <;> simp [Op.Applicable, KukaAction.op, mem_apply, KukaProblem.start, KukaProblem.init, oneBody, oneCertified,
      KukaFact.Certified, KukaBody.facts]
  exact ⟨_, h, by simp [mem_apply, KukaAction.op], C58_consistent oneBody oneCertified C70_nonvacuous.1 (by decide) _ _ h⟩

end Verif.Props
