import Verif.Model.RunLog

/-! C116: what is printed is in the log. -/

namespace Verif.Props

open Verif Verif.RunLog

/-- The visible characters of a text. -/
def visible (t : Text) : Text := t.filter fun c => !isSpace c

theorem space_of_break {c : Char} (h : isBreak c = true) : isSpace c = true := by
  unfold isSpace
  rw [h, Bool.true_or]

theorem splitFrom_char {c : Char} (h : isBreak c = false) (line t : Text) : splitFrom line (c :: t) = splitFrom (line ++ [c]) t := by
  rw [splitFrom.eq_3]
  · rw [h]
    rfl
  · intro t' hc _
    subst hc
    exact absurd h (by decide)

theorem splitFrom_break {c : Char} (h : isBreak c = true) (line t : Text) : splitFrom line (c :: t) = line :: splitFrom [] t ∨
    ∃ t', c = '\r' ∧ t = '\n' :: t' ∧ splitFrom line (c :: t) = line :: splitFrom [] t' := by
  by_cases hx : c = '\r' ∧ ∃ t', t = '\n' :: t'
  · obtain ⟨rfl, t', rfl⟩ := hx
    exact .inr ⟨t', rfl, rfl, by rw [splitFrom.eq_2]⟩
  · left
    rw [splitFrom.eq_3]
    · rw [h]
      rfl
    · intro t' hc ht
      exact hx ⟨hc, t', ht⟩

theorem visible_cons {c : Char} (h : isSpace c = true) (t : Text) : visible (c :: t) = visible t := by
  unfold visible
  rw [List.filter_cons, h]
  rfl

theorem visible_append (s t : Text) : visible (s ++ t) = visible s ++ visible t := List.filter_append ..

theorem visible_spaces {t : Text} (h : ∀ c ∈ t, isSpace c = true) : visible t = [] :=
  List.filter_eq_nil_iff.2 fun c hc => by rw [h c hc]; decide

theorem rstrip_split (t : Text) : ∃ ws, t = rstrip t ++ ws ∧ ∀ c ∈ ws, isSpace c = true := by
  refine ⟨t.rtakeWhile isSpace, List.rdropWhile_append_rtakeWhile.symm, fun c hc => List.mem_rtakeWhile_imp hc⟩

theorem visible_rstrip (t : Text) : visible (rstrip t) = visible t := by
  obtain ⟨ws, h1, h2⟩ := rstrip_split t
  conv_rhs => rw [h1, visible_append, visible_spaces h2, List.append_nil]

theorem visible_splitFrom (n : ℕ) (line t : Text) (hn : t.length ≤ n) : ((splitFrom line t).map visible).flatten = visible line ++ visible t := by
  induction n generalizing line t with
  | zero =>
    obtain rfl : t = [] := List.length_eq_zero_iff.1 (by omega)
    rw [splitFrom]
    split <;> simp_all [visible]
  | succ n ih =>
    match t with
    | [] => rw [splitFrom]; split <;> simp_all [visible]
    | c :: t =>
      rw [List.length_cons] at hn
      cases hb : isBreak c with
      | false =>
        rw [splitFrom_char hb, ih _ _ (by omega), visible_append, List.append_assoc, ← visible_append]
        rfl
      | true =>
        rcases splitFrom_break hb line t with h | ⟨t', rfl, rfl, h⟩
        · rw [h, List.map_cons, List.flatten_cons, ih _ _ (by omega), visible_cons (space_of_break hb)]
          rfl
        · rw [List.length_cons] at hn
          rw [h, List.map_cons, List.flatten_cons, ih _ _ (by omega), visible_cons (by decide), visible_cons (by decide)]
          rfl

theorem visible_write (t : Text) : ((write t).map visible).flatten = visible t := by
  unfold write splitlines
  rw [List.map_map]
  have : visible ∘ rstrip = visible := funext visible_rstrip
  rw [this, visible_splitFrom _ _ _ le_rfl, visible_rstrip]
  rfl

/-- C116: whatever is written, in whatever pieces, the log has all its visible characters, in their order, and no others. -/
theorem C116_text (writes : List Text) : visible (logged writes).flatten = visible writes.flatten := by
  have key : ∀ l : List Text, visible l.flatten = (l.map visible).flatten := fun l => by
    induction l with
    | nil => rfl
    | cons a l ih => rw [List.flatten_cons, visible_append, ih]; rfl
  rw [key, key]
  unfold logged
  induction writes with
  | nil => rfl
  | cons a l ih =>
    rw [List.map_cons, List.flatten_cons, List.map_append, List.flatten_append, ih, visible_write]
    rfl

theorem splitFrom_free (n : ℕ) (line t : Text) (hn : t.length ≤ n) (hl : ∀ c ∈ line, isBreak c = false) :
    ∀ m ∈ splitFrom line t, ∀ c ∈ m, isBreak c = false := by
  induction n generalizing line t with
  | zero =>
    obtain rfl : t = [] := List.length_eq_zero_iff.1 (by omega)
    rw [splitFrom]
    split <;> simp_all
  | succ n ih =>
    match t with
    | [] => rw [splitFrom]; split <;> simp_all
    | c :: t =>
      rw [List.length_cons] at hn
      cases hb : isBreak c with
      | false =>
        rw [splitFrom_char hb]
        refine ih _ _ (by omega) fun d hd => ?_
        rcases List.mem_append.1 hd with hd | hd
        · exact hl d hd
        · rw [List.mem_singleton.1 hd, hb]
      | true =>
        rcases splitFrom_break hb line t with h | ⟨t', rfl, rfl, h⟩
        · rw [h]
          intro m hm
          rcases List.mem_cons.1 hm with rfl | hm
          · exact hl
          · exact ih [] t (by omega) (by simp) m hm
        · rw [List.length_cons] at hn
          rw [h]
          intro m hm
          rcases List.mem_cons.1 hm with rfl | hm
          · exact hl
          · exact ih [] t' (by omega) (by simp) m hm

/-- C116: every message is one line of the file: there is no line break in it; and it does not end with white space. -/
theorem C116_lines (writes : List Text) : ∀ m ∈ logged writes, (∀ c ∈ m, isBreak c = false) ∧ ∀ c ∈ m.getLast?, isSpace c = false := by
  intro m hm
  obtain ⟨ms, h1, h2⟩ := List.mem_flatten.1 hm
  obtain ⟨buf, -, rfl⟩ := List.mem_map.1 h1
  obtain ⟨l, h3, rfl⟩ := List.mem_map.1 h2
  constructor
  · intro c hc
    exact splitFrom_free _ [] _ le_rfl (by simp) l h3 c ((List.rdropWhile_prefix isSpace _).subset hc)
  · intro c hc
    have hne : rstrip l ≠ [] := by
      intro h0
      rw [h0] at hc
      simp at hc
    have := List.rdropWhile_last_not isSpace l hne
    rw [List.getLast?_eq_getLast_of_ne_nil hne] at hc
    cases hc
    exact Bool.eq_false_iff.2 this

theorem splitFrom_line {l : Text} (h : ∀ c ∈ l, isBreak c = false) (line t : Text) : splitFrom line (l ++ t) = splitFrom (line ++ l) t := by
  induction l generalizing line with
  | nil => rw [List.nil_append, List.append_nil]
  | cons a l ih =>
    rw [List.cons_append, splitFrom_char (h a List.mem_cons_self), ih fun c hc => h c (List.mem_cons_of_mem _ hc), List.append_assoc]
    rfl

theorem rstrip_spaces (t ws : Text) (h : ∀ c ∈ ws, isSpace c = true) : rstrip (t ++ ws) = rstrip t := by
  unfold rstrip
  induction ws using List.reverseRecOn with
  | nil => rw [List.append_nil]
  | append_singleton ws c ih =>
    rw [← List.append_assoc, List.rdropWhile_concat_pos _ _ _ (h c (by simp))]
    exact ih fun d hd => h d (List.mem_append_left _ hd)

theorem rstrip_visible (t : Text) {s : Text} (h : visible s ≠ []) : rstrip (t ++ s) = t ++ rstrip s := by
  obtain ⟨ws, h1, h2⟩ := rstrip_split s
  have hne : rstrip s ≠ [] := by
    intro h0
    rw [h0, List.nil_append] at h1
    exact h (h1 ▸ visible_spaces h2)
  have e := List.dropLast_append_getLast hne
  have hlast := List.rdropWhile_last_not isSpace s hne
  conv_lhs => rw [h1, ← List.append_assoc, rstrip_spaces _ _ h2, ← e, ← List.append_assoc]
  unfold rstrip at *
  rw [List.rdropWhile_concat_neg _ _ _ hlast, List.append_assoc, e]

theorem rstrip_idem (t : Text) : rstrip (rstrip t) = rstrip t := List.rdropWhile_idempotent ..

/-- C116: a text that is written at once, lines separated by line feeds, the last of them with a visible character, perhaps followed by white
space, gives one message per line: the line without the white space at its end. -/
theorem C116_exact (ls : List Text) (last ws : Text) (h : ∀ l ∈ ls, ∀ c ∈ l, isBreak c = false) (hl : ∀ c ∈ last, isBreak c = false)
    (hv : visible last ≠ []) (hw : ∀ c ∈ ws, isSpace c = true) :
    write ((ls.map fun l => l ++ ['\n']).flatten ++ last ++ ws) = (ls ++ [last]).map rstrip := by
  unfold write
  rw [rstrip_spaces _ _ hw, rstrip_visible _ hv]
  unfold splitlines
  have key : splitFrom [] ((ls.map fun l => l ++ ['\n']).flatten ++ rstrip last) = ls ++ [rstrip last] := by
    induction ls with
    | nil =>
      rw [List.map_nil, List.flatten_nil, List.nil_append, List.nil_append]
      have := splitFrom_line (fun c hc => hl c ((List.rdropWhile_prefix isSpace _).subset hc)) [] [] (l := rstrip last)
      rw [List.append_nil, List.nil_append] at this
      rw [this, splitFrom, if_neg]
      intro h0
      apply hv
      rw [← visible_rstrip, h0]
      rfl
    | cons l ls ih =>
      rw [List.map_cons, List.flatten_cons, List.append_assoc, List.append_assoc, splitFrom_line (h l List.mem_cons_self), List.nil_append,
        List.cons_append]
      rw [List.nil_append]
      rcases splitFrom_break (c := '\n') (by decide) l ((ls.map fun l => l ++ ['\n']).flatten ++ rstrip last) with h1 | ⟨_, h1, _⟩
      · rw [h1, ih fun l hl => h l (List.mem_cons_of_mem _ hl)]
        rfl
      · exact absurd h1 (by decide)
  rw [key, List.map_append, List.map_append, List.map_singleton, List.map_singleton, rstrip_idem]

theorem write_spaces {ws : Text} (hw : ∀ c ∈ ws, isSpace c = true) : write ws = [] := by
  have := rstrip_spaces [] ws hw
  rw [List.nil_append] at this
  unfold write
  rw [this]
  rfl

/-- C116: a `print` of one text gives exactly the lines of the text, without the white space at their ends. -/
theorem C116_print (ls : List Text) (last : Text) (h : ∀ l ∈ ls, ∀ c ∈ l, isBreak c = false) (hl : ∀ c ∈ last, isBreak c = false)
    (hv : visible last ≠ []) : logged (prints [(ls.map fun l => l ++ ['\n']).flatten ++ last]) = (ls ++ [last]).map rstrip := by
  have h1 := C116_exact ls last [] h hl hv (by simp)
  rw [List.append_nil] at h1
  have h2 : write ['\n'] = [] := write_spaces (by decide)
  show write _ ++ (write ['\n'] ++ []) = _
  rw [h1, h2, List.append_nil, List.append_nil]

/-- C116 for the log of a turtlebot run: if each of the lines is printed at once, has no line break and ends with a visible character, then
the log has these lines, so that the lines that the plots read (C109) are those that were printed. -/
theorem C116_run (ls : List Text) (h : ∀ l ∈ ls, (∀ c ∈ l, isBreak c = false) ∧ ∃ c ∈ l.getLast?, isSpace c = false) :
    logged (ls.map fun l => prints [l]).flatten = ls := by
  induction ls with
  | nil => rfl
  | cons l ls ih =>
    obtain ⟨h1, c, hc, h2⟩ := h l List.mem_cons_self
    have hne : l ≠ [] := by rintro rfl; simp at hc
    rw [List.getLast?_eq_getLast_of_ne_nil hne] at hc
    cases hc
    have hv : visible l ≠ [] := by
      intro h0
      have := List.filter_eq_nil_iff.1 h0 _ (List.getLast_mem hne)
      rw [h2] at this
      exact this rfl
    have e := C116_print [] l (by simp) h1 hv
    rw [List.map_nil, List.flatten_nil, List.nil_append] at e
    have e2 : rstrip l = l := List.rdropWhile_eq_self_iff.2 fun _ => by rw [h2]; decide
    have e3 : logged (prints [l] ++ (ls.map fun l => prints [l]).flatten) = logged (prints [l]) ++ logged (ls.map fun l => prints [l]).flatten := by
      unfold logged
      rw [List.map_append, List.flatten_append]
    rw [List.map_cons, List.flatten_cons, e3, e, ih fun l hl => h l (List.mem_cons_of_mem _ hl)]
    simp [e2]

/-- C116, several arguments: false that a `print` gives one line. Every argument with visible text begins a new line. -/
theorem C116_arguments_false (a b : Text) (ha : visible a ≠ []) (hb : visible b ≠ []) (h1 : ∀ c ∈ a, isBreak c = false)
    (h2 : ∀ c ∈ b, isBreak c = false) : logged (prints [a, b]) = [rstrip a, rstrip b] := by
  have e1 := C116_exact [] a [] (by simp) h1 ha (by simp)
  have e2 := C116_exact [] b [] (by simp) h2 hb (by simp)
  rw [List.append_nil, List.map_nil, List.flatten_nil, List.nil_append] at e1 e2
  have h3 : write ['\n'] = [] := write_spaces (by decide)
  have h4 : write [' '] = [] := write_spaces (by decide)
  show write a ++ (write [' '] ++ (write b ++ (write ['\n'] ++ []))) = _
  rw [e1, e2, h3, h4]
  rfl

/-- C116, blank lines: false that the log has the blank lines that are printed by themselves, or what is at the beginning of a text only. -/
theorem C116_blank_false : logged (prints [[]] ++ prints [] ++ prints [[' ', '\n']]) = [] ∧
    logged (prints [['\n', 'a', '\n', '\n']]) = [[], ['a']] := by decide +kernel

/-- C116 is not vacuous: some lines of a run, and `print('Robot:', 1)`. -/
theorem C116_nonvacuous :
    (∀ l ∈ [['S', ':', ' ', 'T'], ['T', ':', ' ', '2', '.', '5']], (∀ c ∈ l, isBreak c = false) ∧ ∃ c ∈ l.getLast?, isSpace c = false) ∧
    logged (prints [['R', ':'], ['1']]) = [['R', ':'], ['1']] ∧
    logged (prints [['a', ' ', '\r', '\n', 'b', '\r', 'c']]) = [['a'], ['b'], ['c']] := by
  refine ⟨?_, ?_, ?_⟩
  · intro l hl
    simp only [List.mem_cons, List.not_mem_nil, or_false] at hl
    rcases hl with rfl | rfl
    · exact ⟨by decide, _, rfl, by decide⟩
    · exact ⟨by decide, _, rfl, by decide⟩
  · decide +kernel
  · decide +kernel

end Verif.Props
