import Verif.Model.Py

namespace Verif

variable {σ β : Type _} {body : σ → Step σ β}

theorem loop_done {s : σ} {b : β} (h : body s = .done b) (n : Nat) : loop body (n + 1) s = some b := by
  simp [loop, h]

theorem loop_next {s s' : σ} (h : body s = .next s') (n : Nat) :
    loop body (n + 1) s = loop body n s' := by
  simp [loop, h]

theorem loop_mono {n : Nat} {s : σ} {b : β} (h : loop body n s = some b) (m : Nat) :
    loop body (n + m) s = some b := by
  induction n generalizing s with
  | zero => simp [loop] at h
  | succ n ih =>
    rw [Nat.succ_add]
    unfold loop at h ⊢
    split
    · next heq => rw [heq] at h; exact h
    · next heq => rw [heq] at h; exact ih h

theorem LoopStops.of_done {s : σ} {b : β} (h : body s = .done b) : LoopStops body s b :=
  ⟨1, loop_done h 0⟩

theorem LoopStops.of_next {s s' : σ} {b : β} (h : body s = .next s') (hs : LoopStops body s' b) :
    LoopStops body s b := by
  obtain ⟨n, hn⟩ := hs
  exact ⟨n + 1, by rw [loop_next h]; exact hn⟩

/-- A loop has at most one outcome. -/
theorem LoopStops.unique {s : σ} {b c : β} (hb : LoopStops body s b) (hc : LoopStops body s c) : b = c := by
  obtain ⟨n, hn⟩ := hb
  obtain ⟨m, hm⟩ := hc
  have h1 := loop_mono hn m
  have h2 := loop_mono hm n
  rw [Nat.add_comm m n] at h2
  rw [h1] at h2
  exact Option.some.inj h2

theorem LoopDiverges.not_stops {s : σ} (h : LoopDiverges body s) (b : β) : ¬ LoopStops body s b := by
  rintro ⟨n, hn⟩
  rw [h n] at hn
  cases hn

theorem LoopDiverges.of_next {s s' : σ} (h : body s = .next s') (hd : LoopDiverges body s') :
    LoopDiverges body s := by
  intro n
  cases n with
  | zero => rfl
  | succ n => rw [loop_next h]; exact hd n

/-- A state that the body maps to itself is never left. -/
theorem LoopDiverges.of_fixed {s : σ} (h : body s = .next s) : LoopDiverges body s := by
  intro n
  induction n with
  | zero => rfl
  | succ n ih => rw [loop_next h]; exact ih

/-- Invariant rule. -/
theorem LoopDiverges.of_invariant (I : σ → Prop) (hI : ∀ s, I s → ∃ s', body s = .next s' ∧ I s')
    {s : σ} (hs : I s) : LoopDiverges body s := by
  intro n
  induction n generalizing s with
  | zero => rfl
  | succ n ih =>
    obtain ⟨s', h, hs'⟩ := hI s hs
    rw [loop_next h]; exact ih hs'

/-- Total correctness rule: invariant, decreasing measure, postcondition. -/
theorem LoopStops.of_measure (I : σ → Prop) (Q : β → Prop) (μ : σ → Nat)
    (hstep : ∀ s, I s → (∃ b, body s = .done b ∧ Q b) ∨ (∃ s', body s = .next s' ∧ I s' ∧ μ s' < μ s))
    {s : σ} (hs : I s) : ∃ b, LoopStops body s b ∧ Q b := by
  generalize hk : μ s = k
  induction k using Nat.strongRecOn generalizing s with
  | _ k ih =>
    rcases hstep s hs with ⟨b, hb, hq⟩ | ⟨s', h', hs', hlt⟩
    · exact ⟨b, .of_done hb, hq⟩
    · obtain ⟨b, hb, hq⟩ := ih (μ s') (hk ▸ hlt) hs' rfl
      exact ⟨b, .of_next h' hb, hq⟩

/-- Partial correctness rule. -/
theorem LoopStops.post (I : σ → Prop) (Q : β → Prop)
    (hdone : ∀ s b, I s → body s = .done b → Q b) (hnext : ∀ s s', I s → body s = .next s' → I s')
    {s : σ} (hs : I s) {b : β} (h : LoopStops body s b) : Q b := by
  obtain ⟨n, hn⟩ := h
  induction n generalizing s with
  | zero => simp [loop] at hn
  | succ n ih =>
    unfold loop at hn
    split at hn
    · next b' heq => cases hn; exact hdone s _ hs heq
    · next s' heq => exact ih (hnext s s' hs heq) hn

end Verif
