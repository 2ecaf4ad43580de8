import Verif.Spec.Worlds

/-! Lemmas on plans. -/

namespace Verif.Strips

variable {A F : Type} {op : A → Op F}

theorem Executes.invariant {I : Set F → Prop} (hstep : ∀ s a, I s → (op a).Applicable s → I ((op a).apply s)) :
    ∀ {plan : List A} {s s' : Set F}, I s → Executes op s plan s' → I s'
  | [], s, s', h, he => by rw [show s' = s from he]; exact h
  | a :: plan, s, s', h, he => Executes.invariant hstep (hstep s a h he.1) he.2

theorem Executes.append {p q : List A} {s s'' : Set F} : Executes op s (p ++ q) s'' ↔ ∃ s', Executes op s p s' ∧ Executes op s' q s'' := by
  induction p generalizing s with
  | nil => exact ⟨fun h => ⟨s, rfl, h⟩, fun ⟨s', h1, h2⟩ => by rw [show s' = s from h1] at h2; exact h2⟩
  | cons a p ih =>
    constructor
    · rintro ⟨h1, h2⟩
      obtain ⟨s', h3, h4⟩ := ih.1 h2
      exact ⟨s', ⟨h1, h3⟩, h4⟩
    · rintro ⟨s', ⟨h1, h2⟩, h3⟩
      exact ⟨h1, ih.2 ⟨s', h2, h3⟩⟩

/-- Invariants that mention the actions taken so far. -/
theorem Executes.history {I : List A → Set F → Prop} {s : Set F} (h0 : I [] s)
    (hstep : ∀ p s' a, I p s' → (op a).Applicable s' → I (p ++ [a]) ((op a).apply s')) {plan : List A} {s' : Set F}
    (h : Executes op s plan s') : I plan s' := by
  have key : ∀ (q p : List A) (t : Set F), I p t → ∀ t', Executes op t q t' → I (p ++ q) t' := by
    intro q
    induction q with
    | nil => intro p t hp t' ht; rw [show t' = t from ht, List.append_nil]; exact hp
    | cons a q ih =>
      intro p t hp t' ht
      have := ih (p ++ [a]) _ (hstep p t a hp ht.1) t' ht.2
      rwa [List.append_assoc] at this
  simpa using key plan [] s h0 s' h

theorem mem_apply (a : Op F) (s : Set F) (f : F) : f ∈ a.apply s ↔ (f ∈ s ∧ f ∉ a.del) ∨ f ∈ a.add := Iff.rfl

end Verif.Strips
