import Verif.Props.KukaDomain

/-! Properties of executable kuka plans: C70 (where objects are put down), C71 (cleaned objects were inserted). -/

set_option linter.unusedSimpArgs false

namespace Verif.Props

open Verif.Strips Verif.Spec

variable {α : Type}

/-- **C70** (partial). In every executable plan an object is put down only at its start pose, at its pose in its sink or at its
pre-insertion pose. Missing: the pre-insertion pose should not be among them. -/
theorem C70_places_partial (p : KukaProblem α) (certified : Set (KukaFact α)) (hc : KukaCertified p certified) (plan : List (KukaAction α))
    (s : Set (KukaFact α)) (h : Executes KukaAction.op (p.start certified) plan s) (o x g q : α) (hp : .place o x g q ∈ plan) :
    ∃ b ∈ p.bodies, b.body = o ∧ b.grasp = g ∧ (x = b.pose ∨ ∃ sink post pre qpre qpost, b.insert = some (sink, post, pre, qpre, qpost) ∧ (x = post ∨ x = pre)) := by
  obtain ⟨l, r, rfl⟩ := List.append_of_mem hp
  obtain ⟨u, h1, h2⟩ := Executes.append.1 h
  have hkin := (static_executes (f := .kin o x g q) trivial h1).1 (h2.1 _ (by simp [KukaAction.op]))
  obtain ⟨b, hb, hk⟩ := start_kin hc hkin
  rw [mem_facts_kin] at hk
  obtain ⟨h3, h4, ⟨h5, _⟩ | ⟨_, _, _, _, _, hi, ⟨h5, _⟩ | ⟨h5, _⟩⟩⟩ := hk
  · exact ⟨b, hb, h3.symm, h4.symm, .inl h5⟩
  · exact ⟨b, hb, h3.symm, h4.symm, .inr ⟨_, _, _, _, _, hi, .inr h5⟩⟩
  · exact ⟨b, hb, h3.symm, h4.symm, .inr ⟨_, _, _, _, _, hi, .inl h5⟩⟩

/-- The pose of body `b` in its sink, with the configuration for it. -/
def InSink (b : KukaBody α) (post qpost : α) : Prop := ∃ sk pre qpre, b.insert = some (sk, post, pre, qpre, qpost)

/-- An insertion of `o` is in the plan. -/
def Inserted (o : α) (plan : List (KukaAction α)) : Prop := ∃ q1 q2 g t, .moveInsert q1 q2 o g t ∈ plan

/-- What the actions taken so far imply for objects in sinks. -/
structure SinkHistory (p : KukaProblem α) (plan : List (KukaAction α)) (s : Set (KukaFact α)) : Prop where
  placed : ∀ b ∈ p.bodies, ∀ post qpost, InSink b post qpost → .atPose b.body post ∈ s → Inserted b.body plan
  held : ∀ b ∈ p.bodies, ∀ post qpost g, InSink b post qpost → .atGrasp b.body g ∈ s → .atConf qpost ∈ s → Inserted b.body plan
  cleaned : ∀ o, .cleaned o ∈ s → Inserted o plan
  inv : KukaInv (p.bodies.map KukaBody.body) s

theorem Inserted.later {o : α} {plan : List (KukaAction α)} (h : Inserted o plan) (a : KukaAction α) : Inserted o (plan ++ [a]) := by
  obtain ⟨q1, q2, g, t, h⟩ := h
  exact ⟨q1, q2, g, t, by simp [h]⟩

/-- Kinematic facts of the sink pose and the sink configuration belong together. -/
theorem kin_sink {p : KukaProblem α} (hd : KukaDistinct p) {certified : Set (KukaFact α)} (hc : KukaCertified p certified) {b : KukaBody α}
    (hb : b ∈ p.bodies) {post qpost : α} (hs : InSink b post qpost) {x g q : α} (h : .kin b.body x g q ∈ p.start certified) : x = post ↔ q = qpost := by
  obtain ⟨b', hb', hk⟩ := start_kin hc h
  rw [mem_facts_kin] at hk
  obtain ⟨h1, _, hcases⟩ := hk
  obtain rfl : b = b' := List.inj_on_of_nodup_map hd.bodies hb hb' h1
  obtain ⟨sk, pre, qpre, hins⟩ := hs
  have hnd := (List.nodup_flatMap.1 hd.confs).1 b hb
  have hndp := (List.nodup_flatMap.1 hd.poses).1 b hb
  simp only [hins, List.nodup_cons, List.mem_cons, List.not_mem_nil, or_false, not_or, not_false_eq_true, List.nodup_nil, and_true] at hnd hndp
  rcases hcases with ⟨rfl, rfl⟩ | ⟨_, _, _, _, _, hi, ⟨h3, h4⟩ | ⟨h3, h4⟩⟩
  · exact ⟨fun h => absurd h hndp.1.1, fun h => absurd h hnd.1.2⟩
  · rw [hins] at hi
    simp only [Option.some.injEq, Prod.mk.injEq] at hi
    obtain ⟨_, _, rfl, rfl, _⟩ := hi
    rw [h3, h4]
    exact ⟨fun h => absurd h.symm hndp.2, fun h => absurd h hnd.2⟩
  · rw [hins] at hi
    simp only [Option.some.injEq, Prod.mk.injEq] at hi
    obtain ⟨_, rfl, _, _, rfl⟩ := hi
    exact ⟨fun _ => h4, fun _ => h3⟩

theorem pre_ne_post {p : KukaProblem α} (hd : KukaDistinct p) {certified : Set (KukaFact α)} (hc : KukaCertified p certified) {b : KukaBody α}
    (hb : b ∈ p.bodies) {post qpost : α} (hs : InSink b post qpost) : .preInsert qpost ∉ p.start certified := by
  intro h
  obtain ⟨b', hb', hp⟩ := start_preInsert hc h
  rw [mem_facts_preInsert] at hp
  obtain ⟨sk', post', pre', qpost', hins'⟩ := hp
  obtain ⟨sk, pre, qpre, hins⟩ := hs
  have hq' : qpost ∈ b'.conf :: (match b'.insert with | none => [] | some (_, _, _, qpre, qpost) => [qpre, qpost]) := by rw [hins']; simp
  have hq : qpost ∈ b.conf :: (match b.insert with | none => [] | some (_, _, _, qpre, qpost) => [qpre, qpost]) := by rw [hins]; simp
  obtain rfl : b = b' := flatMap_inj hd.confs hb hb' hq hq'
  have hnd := (List.nodup_flatMap.1 hd.confs).1 b hb
  simp only [hins, List.nodup_cons, List.mem_cons, List.not_mem_nil, or_false, not_or, not_false_eq_true, List.nodup_nil, and_true] at hnd
  rw [hins] at hins'
  simp only [Option.some.injEq, Prod.mk.injEq] at hins'
  exact hnd.2 hins'.2.2.2.1

/-- Certified motions of a held object end where the streams allow. -/
theorem motion_ends {p : KukaProblem α} {certified : Set (KukaFact α)} (hc : KukaCertified p certified) {q1 t q2 o g : α}
    (h : .holdingMotion q1 t q2 o g ∈ p.start certified) : .preInsert q2 ∈ p.start certified := by
  rcases h with h | h
  · exfalso
    have : ∀ b : KukaBody α, KukaFact.holdingMotion q1 t q2 o g ∉ b.facts := fun b => by
      unfold KukaBody.facts; rcases hb : b.insert with _ | ⟨sk, post, pre, qpre, qpost⟩ <;> simp [List.mem_append]
    simp [KukaProblem.init, this] at h
  · exact (hc _ h).2.2.2

theorem SinkHistory.step {p : KukaProblem α} (hd : KukaDistinct p) {certified : Set (KukaFact α)} (hc : KukaCertified p certified)
    (hsup : ∀ b ∈ p.bodies, ∀ r ∈ b.surfaces, r.2 = false) (plan : List (KukaAction α)) (s : Set (KukaFact α)) (a : KukaAction α)
    (hstat : ∀ f, KukaStatic f → (f ∈ s ↔ f ∈ p.start certified)) (h : SinkHistory p plan s) (ha : a.op.Applicable s) :
    SinkHistory p (plan ++ [a]) (a.op.apply s) := by
  have hinv := h.inv.step _ s a ha
  cases a with
  | moveFree q1 q2 t =>
    have hempty := ha .handEmpty (by simp [KukaAction.op])
    refine ⟨?_, ?_, ?_, hinv⟩
    · intro b hb post qpost hs hp
      exact (h.placed b hb post qpost hs (by simpa [mem_apply, KukaAction.op] using hp)).later _
    · intro b hb post qpost g hs hg
      exfalso
      have hg' : KukaFact.atGrasp b.body g ∈ s := by simpa [mem_apply, KukaAction.op] using hg
      rcases h.inv.consistent.hand with ⟨_, hh⟩ | ⟨hh, _⟩
      · exact hh _ _ hg'
      · exact hh hempty
    · intro o ho
      exact (h.cleaned o (by simpa [mem_apply, KukaAction.op] using ho)).later _
  | moveHolding q1 q2 o g t =>
    have hm := (hstat (.holdingMotion q1 t q2 o g) trivial).1 (ha (.holdingMotion q1 t q2 o g) (by simp [KukaAction.op]))
    have hq := ha (.atConf q1) (by simp [KukaAction.op])
    refine ⟨?_, ?_, ?_, hinv⟩
    · intro b hb post qpost hs hp
      exact (h.placed b hb post qpost hs (by simpa [mem_apply, KukaAction.op] using hp)).later _
    · intro b hb post qpost g' hs _ hq'
      exfalso
      have hqq : qpost = q2 := by
        obtain ⟨q0, _, hu⟩ := hinv.consistent.conf
        have h2 : KukaFact.atConf q2 ∈ (KukaAction.moveHolding q1 q2 o g t).op.apply s := by simp [mem_apply, KukaAction.op]
        rw [hu _ hq', hu _ h2]
      rw [hqq] at hs
      exact pre_ne_post hd hc hb hs (motion_ends hc hm)
    · intro o ho
      exact (h.cleaned o (by simpa [mem_apply, KukaAction.op] using ho)).later _
  | moveInsert q1 q2 o g t =>
    have hgr := ha (.atGrasp o g) (by simp [KukaAction.op])
    refine ⟨?_, ?_, ?_, hinv⟩
    · intro b hb post qpost hs hp
      exact (h.placed b hb post qpost hs (by simpa [mem_apply, KukaAction.op] using hp)).later _
    · intro b hb post qpost g' hs hg _
      have hg' : KukaFact.atGrasp b.body g' ∈ s := by simpa [mem_apply, KukaAction.op] using hg
      have : b.body = o := by
        rcases h.inv.consistent.hand with ⟨_, hh⟩ | ⟨_, o0, g0, _, hu⟩
        · exact absurd hg' (hh _ _)
        · rw [(hu _ _ hg').1, (hu _ _ hgr).1]
      exact ⟨q1, q2, g, t, by simp [this]⟩
    · intro o ho
      exact (h.cleaned o (by simpa [mem_apply, KukaAction.op] using ho)).later _
  | pick o x g q =>
    have hkin := (hstat (.kin o x g q) trivial).1 (ha (.kin o x g q) (by simp [KukaAction.op]))
    have hat := ha (.atPose o x) (by simp [KukaAction.op])
    have hempty := ha .handEmpty (by simp [KukaAction.op])
    have hq := ha (.atConf q) (by simp [KukaAction.op])
    refine ⟨?_, ?_, ?_, hinv⟩
    · intro b hb post qpost hs hp
      have hp' : KukaFact.atPose b.body post ∈ s := by
        rcases hp with ⟨h', _⟩ | h'
        · exact h'
        · simp [KukaAction.op] at h'
      exact (h.placed b hb post qpost hs hp').later _
    · intro b hb post qpost g' hs hg hq'
      have hno : KukaFact.atGrasp b.body g' ∉ s := by
        rcases h.inv.consistent.hand with ⟨_, hh⟩ | ⟨hh, _⟩
        · exact hh _ _
        · exact absurd hempty hh
      obtain ⟨rfl, rfl⟩ : b.body = o ∧ g' = g := by simpa [mem_apply, KukaAction.op, hno] using hg
      have hq2 : KukaFact.atConf qpost ∈ s := by simpa [mem_apply, KukaAction.op] using hq'
      obtain ⟨q0, _, hu⟩ := h.inv.consistent.conf
      obtain rfl : q = qpost := by rw [hu _ hq2, hu _ hq]
      obtain rfl : x = post := (kin_sink hd hc hb hs hkin).2 rfl
      exact (h.placed b hb _ _ hs hat).later _
    · intro o ho
      exact (h.cleaned o (by simpa [mem_apply, KukaAction.op] using ho)).later _
  | place o x g q =>
    have hkin := (hstat (.kin o x g q) trivial).1 (ha (.kin o x g q) (by simp [KukaAction.op]))
    have hgr := ha (.atGrasp o g) (by simp [KukaAction.op])
    have hq := ha (.atConf q) (by simp [KukaAction.op])
    have hempty : KukaFact.handEmpty ∈ (KukaAction.place o x g q).op.apply s := by simp [mem_apply, KukaAction.op]
    refine ⟨?_, ?_, ?_, hinv⟩
    · intro b hb post qpost hs hp
      rcases hp with ⟨h', _⟩ | h'
      · exact (h.placed b hb post qpost hs h').later _
      · obtain ⟨rfl, rfl⟩ : b.body = o ∧ post = x := by simpa [KukaAction.op] using h'
        obtain rfl : q = qpost := (kin_sink hd hc hb hs hkin).1 rfl
        exact (h.held b hb _ _ g hs hgr hq).later _
    · intro b hb post qpost g' hs hg
      rcases hinv.consistent.hand with ⟨_, hh⟩ | ⟨hh, _⟩
      · exact absurd hg (hh _ _)
      · exact absurd hempty hh
    · intro o ho
      exact (h.cleaned o (by simpa [mem_apply, KukaAction.op] using ho)).later _
  | clean o r x =>
    have hsp := (hstat (.supported o x r) trivial).1 (ha (.supported o x r) (by simp [KukaAction.op]))
    have hat := ha (.atPose o x) (by simp [KukaAction.op])
    refine ⟨?_, ?_, ?_, hinv⟩
    · intro b hb post qpost hs hp
      exact (h.placed b hb post qpost hs (by simpa [mem_apply, KukaAction.op] using hp)).later _
    · intro b hb post qpost g hs hg hq
      exact (h.held b hb post qpost g hs (by simpa [mem_apply, KukaAction.op] using hg) (by simpa [mem_apply, KukaAction.op] using hq)).later _
    · rintro o' (⟨h', _⟩ | h')
      · exact (h.cleaned o' h').later _
      · obtain rfl : o' = o := by simpa [KukaAction.op] using h'
        obtain ⟨b, hb, hs⟩ := start_supported hc hsp
        have hx : o' = b.body ∧ ∃ sk pre qpre qpost, b.insert = some (sk, x, pre, qpre, qpost) := by
          unfold KukaBody.facts at hs
          have hno : ∀ y, (y, true) ∉ b.surfaces := fun y hy => by simpa using hsup b hb _ hy
          rcases hins : b.insert with _ | ⟨sk, post, pre, qpre, qpost⟩
          · simp [List.mem_append, hins, hno] at hs
          · simp [List.mem_append, hins, hno] at hs
            exact ⟨hs.1, sk, pre, qpre, qpost, by rw [hs.2.1]⟩
        obtain ⟨rfl, sk, pre, qpre, qpost, hins⟩ := hx
        exact (h.placed b hb x qpost ⟨sk, pre, qpre, hins⟩ hat).later _
  | cook o r x =>
    refine ⟨?_, ?_, ?_, hinv⟩
    · intro b hb post qpost hs hp
      exact (h.placed b hb post qpost hs (by simpa [mem_apply, KukaAction.op] using hp)).later _
    · intro b hb post qpost g hs hg hq
      exact (h.held b hb post qpost g hs (by simpa [mem_apply, KukaAction.op] using hg) (by simpa [mem_apply, KukaAction.op] using hq)).later _
    · intro o' ho
      rcases ho with ⟨h', _⟩ | h'
      · exact (h.cleaned o' h').later _
      · simp [KukaAction.op] at h'

/-- **C71**. If no object lies in a sink at the start, every object that is clean after an executable plan was brought in by an insertion
motion of the plan. In particular a plan that reaches the goal has an insertion for every body. -/
theorem C71_inserted (p : KukaProblem α) (hd : KukaDistinct p) (certified : Set (KukaFact α)) (hc : KukaCertified p certified)
    (hsup : ∀ b ∈ p.bodies, ∀ r ∈ b.surfaces, r.2 = false) (plan : List (KukaAction α)) (s : Set (KukaFact α))
    (h : Executes KukaAction.op (p.start certified) plan s) :
    (∀ o, .cleaned o ∈ s → ∃ q1 q2 g t, .moveInsert q1 q2 o g t ∈ plan) ∧
    ((∀ f ∈ p.goal, f ∈ s) → ∀ b ∈ p.bodies, ∃ q1 q2 g t, .moveInsert q1 q2 b.body g t ∈ plan) := by
  have hinv := KukaInv.start p certified hc hd.bodies
  have key := Executes.history (I := fun plan s => SinkHistory p plan s ∧ ∀ f, KukaStatic f → (f ∈ s ↔ f ∈ p.start certified))
    (s := p.start certified) ⟨⟨?_, ?_, ?_, hinv⟩, fun f _ => Iff.rfl⟩
    (fun pl s' a hI ha => ⟨SinkHistory.step hd hc hsup pl s' a hI.2 hI.1 ha, fun f hf => by rw [← hI.2 f hf]; exact static_apply hf a s'⟩) h
  · refine ⟨fun o ho => key.1.cleaned o ho, fun hg b hb => key.1.cleaned b.body (hg _ ?_)⟩
    unfold KukaProblem.goal
    exact List.mem_cons_of_mem _ (List.mem_map.2 ⟨b, hb, rfl⟩)
  · intro b hb post qpost hs hp
    exfalso
    rw [kuka_init hc (by simp [KukaFact.Certified])] at hp
    have hp' : ∃ b' ∈ p.bodies, b.body = b'.body ∧ post = b'.pose := by simpa [KukaProblem.init, mem_facts_atPose] using hp
    obtain ⟨b', hb', h1, h2⟩ := hp'
    obtain rfl : b = b' := List.inj_on_of_nodup_map hd.bodies hb hb' h1
    obtain ⟨sk, pre, qpre, hins⟩ := hs
    have hndp := (List.nodup_flatMap.1 hd.poses).1 b hb
    simp only [hins, List.nodup_cons, List.mem_cons, List.not_mem_nil, or_false, not_or, not_false_eq_true, List.nodup_nil, and_true] at hndp
    exact hndp.1.1 h2.symm
  · intro b hb post qpost g hs hg
    rcases hinv.consistent.hand with ⟨_, hh⟩ | ⟨hh, _⟩
    · exact absurd hg (hh _ _)
    · exact absurd (.inl (by simp [KukaProblem.init])) hh
  · intro o ho
    exfalso
    rw [kuka_init hc (by simp [KukaFact.Certified])] at ho
    have : ∀ b : KukaBody α, KukaFact.cleaned o ∉ b.facts := fun b => by
      unfold KukaBody.facts; rcases hb : b.insert with _ | ⟨sk, post, pre, qpre, qpost⟩ <;> simp [List.mem_append]
    simp [KukaProblem.init, this] at ho

/-- **C71** applies to the plan of `C70_nonvacuous`, which reaches the goal. -/
theorem C71_nonvacuous : KukaCertified oneBody oneCertified ∧ KukaDistinct oneBody ∧ (∀ b ∈ oneBody.bodies, ∀ r ∈ b.surfaces, r.2 = false) ∧
    ∃ plan s, Executes KukaAction.op (oneBody.start oneCertified) plan s ∧ ∀ f ∈ oneBody.goal, f ∈ s := by
  obtain ⟨h1, h2, s, h3, h4⟩ := C70_nonvacuous
  exact ⟨h1, h2, by decide, _, s, h3, h4⟩

end Verif.Props
