import Verif.Spec.Plots
import Mathlib.Data.List.Nodup
import Mathlib.Data.Rat.Defs
import Mathlib.Tactic.NormNum

/-! C109: the plots of logged runs. -/

namespace Verif.Props

open Verif Verif.Plots

variable {K : Type*}

theorem occurs_iff (sub line : Line) : occurs sub line = true ↔ sub <:+: line := decide_eq_true_iff

theorem occurs_false {sub line : Line} (h : ¬ sub <:+: line) : occurs sub line = false := decide_eq_false h

theorem matchAt_nil_of {key text : Line} (h : ¬ (key ++ ['=']) <+: text) : matchAt key text = none := by
  unfold matchAt
  rw [if_neg]
  rw [List.isPrefixOf_iff_prefix]
  exact h

theorem matchAt_field {key value v : Line} (h1 : value ≠ []) (h2 : ' ' ∉ value) (h3 : ',' ∉ value) :
    matchAt key (key ++ '=' :: value ++ ',' :: v) = some value := by
  unfold matchAt
  have hd : (key ++ '=' :: value ++ ',' :: v).drop (key.length + 1) = value ++ ',' :: v := by
    rw [show key ++ '=' :: value ++ ',' :: v = (key ++ ['=']) ++ (value ++ ',' :: v) by simp]
    rw [List.drop_left' (by simp)]
  have ht : (value ++ ',' :: v).takeWhile (fun c => !(c == ' ' || c == ',')) = value := by
    rw [List.takeWhile_append_of_pos]
    · simp
    · intro c hc
      have e1 : c ≠ ' ' := by rintro rfl; exact h2 hc
      have e2 : c ≠ ',' := by rintro rfl; exact h3 hc
      simp [e1, e2]
  rw [if_pos]
  · simp only [hd, ht]
    rw [if_pos]
    exact ⟨h1, by simp⟩
  · rw [List.isPrefixOf_iff_prefix]
    exact ⟨value ++ ',' :: v, by simp⟩

theorem search_field {key value text : Line} (h : HasField key value text) : search key text = some value := by
  obtain ⟨u, v, ht, h1, h2, h3, hmin⟩ := h
  induction u generalizing text with
  | nil =>
    have hm := matchAt_field (key := key) (v := v) h1 h2 h3
    cases text with
    | nil => simp at ht
    | cons c l =>
      unfold search
      rw [ht, List.nil_append, hm]
  | cons c u ih =>
    subst ht
    simp only [List.cons_append]
    unfold search
    rw [matchAt_nil_of]
    · simp only
      apply ih rfl
      intro u' v' h
      have := hmin (c :: u') v' (by simp only [List.cons_append]; rw [h])
      simpa using this
    · rintro ⟨w, hw⟩
      have := hmin [] w (by simp only [List.nil_append]; rw [← List.cons_append, ← List.cons_append] at hw; simpa using hw.symm)
      simp at this

theorem strip_id {t : Line} {a z : Char} {s : Line} (ht : t = a :: s) (ha : a.isWhitespace = false) (hz : t.getLast? = some z)
    (hz' : z.isWhitespace = false) : strip t = t := by
  unfold strip
  have h1 : t.dropWhile Char.isWhitespace = t := by rw [ht, List.dropWhile_cons, ha]; rfl
  rw [h1]
  have h2 : t.reverse.dropWhile Char.isWhitespace = t.reverse := by
    obtain ⟨l, rfl⟩ : ∃ l, t = l ++ [z] := by
      rw [List.getLast?_eq_some_iff] at hz
      exact hz
    rw [List.reverse_append]
    simp [hz']
  rw [h2, List.reverse_reverse]

theorem deleteFrom_skip (sub : Line) (u t : Line) : deleteFrom sub u.length (u ++ t) = deleteFrom sub 0 t := by
  induction u with
  | nil => rfl
  | cons c u ih => simpa [deleteFrom] using ih

theorem deleteFrom_id {sub t : Line} (h : ¬ sub <:+: t) : deleteFrom sub 0 t = t := by
  induction t with
  | nil => rfl
  | cons c t ih =>
    unfold deleteFrom
    rw [if_neg, ih]
    · intro hc
      exact h (List.infix_cons hc)
    · rw [List.isPrefixOf_iff_prefix]
      intro hc
      exact h hc.isInfix

theorem deleteFrom_time {t : Line} (h : ' ' ∉ t) : deleteFrom "Time: ".toList 0 ("Time: ".toList ++ t) = t := by
  have h0 : ¬ "Time: ".toList <:+: t := by
    intro hc
    exact h (hc.subset (by decide))
  have h1 := deleteFrom_skip "Time: ".toList "ime: ".toList t
  rw [deleteFrom_id h0] at h1
  conv_lhs => rw [show "Time: ".toList ++ t = 'T' :: ("ime: ".toList ++ t) from rfl]
  unfold deleteFrom
  rw [if_pos]
  · exact h1
  · rw [List.isPrefixOf_iff_prefix]
    exact ⟨t, rfl⟩

section

variable {α β : Type*} [DecidableEq α]

theorem put_new (d : Dict α β) {k : α} (v : β) (h : k ∉ d.map Prod.fst) : d.put k v = d ++ [(k, v)] := by
  induction d with
  | nil => rfl
  | cons x d ih =>
    obtain ⟨a, b⟩ := x
    simp only [List.map_cons, List.mem_cons, not_or] at h
    unfold Dict.put
    rw [if_neg (fun hc => h.1 hc.symm), ih h.2]
    rfl

theorem get_mem (d : Dict α β) {k : α} {v : β} (hd : (d.map Prod.fst).Nodup) (h : (k, v) ∈ d) : d.get k = some v := by
  induction d with
  | nil => simp at h
  | cons x d ih =>
    obtain ⟨a, b⟩ := x
    unfold Dict.get
    rw [List.map_cons, List.nodup_cons] at hd
    rcases List.mem_cons.1 h with h | h
    · cases h
      rw [if_pos rfl]
    · rw [if_neg, ih hd.2 h]
      rintro rfl
      exact hd.1 (List.mem_map.2 ⟨_, h, rfl⟩)

theorem get_none (d : Dict α β) {k : α} (h : k ∉ d.map Prod.fst) : d.get k = none := by
  induction d with
  | nil => rfl
  | cons x d ih =>
    obtain ⟨a, b⟩ := x
    simp only [List.map_cons, List.mem_cons, not_or] at h
    unfold Dict.get
    rw [if_neg (fun hc => h.1 hc.symm), ih h.2]

theorem get_put (d : Dict α β) (k : α) (v : β) (j : α) : (d.put k v).get j = if k = j then some v else d.get j := by
  induction d with
  | nil => simp [Dict.put, Dict.get]
  | cons x d ih =>
    obtain ⟨a, b⟩ := x
    unfold Dict.put
    by_cases h : a = k
    · subst h
      rw [if_pos rfl]
      unfold Dict.get
      by_cases h' : a = j
      · simp [h']
      · simp [h']
    · rw [if_neg h]
      unfold Dict.get
      by_cases h' : a = j
      · subst h'
        rw [if_pos rfl, if_pos rfl, if_neg (fun hc => h hc.symm)]
      · rw [if_neg h', if_neg h', ih]

theorem get_push {γ : Type*} (d : Dict α (List γ)) (k : α) (v : γ) (j : α) :
    (d.push k v).get j = if k = j then some ((d.get k).getD [] ++ [v]) else d.get j := get_put _ _ _ _

theorem put_keys (d : Dict α β) (k : α) (v : β) (h : (d.map Prod.fst).Nodup) :
    ((d.put k v).map Prod.fst).Nodup ∧ ∀ j, j ∈ (d.put k v).map Prod.fst ↔ j = k ∨ j ∈ d.map Prod.fst := by
  induction d with
  | nil => simp [Dict.put]
  | cons x d ih =>
    obtain ⟨a, b⟩ := x
    rw [List.map_cons, List.nodup_cons] at h
    unfold Dict.put
    by_cases hk : a = k
    · subst hk
      rw [if_pos rfl]
      simp only [List.map_cons, List.nodup_cons, List.mem_cons]
      exact ⟨h, fun j => by tauto⟩
    · rw [if_neg hk]
      obtain ⟨i1, i2⟩ := ih h.2
      simp only [List.map_cons, List.nodup_cons, List.mem_cons]
      refine ⟨⟨?_, i1⟩, fun j => by rw [i2]; tauto⟩
      rw [i2]
      rintro (hc | hc)
      · exact hk hc
      · exact h.1 hc

end

/-- What was found after these runs, each with the name of its file. -/
def foundOf (items : List (Line × Run K)) : Found K :=
  ⟨items.map fun x => (x.1, if x.2.adaptive then 1 else 0), items.map fun x => (x.1, x.2.minSamples), items.map fun x => (x.1, x.2.maxSamples),
    items.filterMap fun x => x.2.outcome.map fun o => (x.1, if o.1 then 1 else 0), items.filterMap fun x => x.2.outcome.map fun o => (x.1, o.2)⟩

theorem readLine_plain (P : Parser K) (file : Line) (f : Found K) {l : Line} (h : Plain l) : readLine P file f l = .ok f := by
  obtain ⟨h1, h2, h3⟩ := h
  unfold readLine readArgs
  rw [if_neg (fun h => h1 ((occurs_iff _ _).1 h))]
  simp only
  rw [if_neg (by rw [List.isPrefixOf_iff_prefix]; exact h3), if_neg (by rw [List.isPrefixOf_iff_prefix]; exact h2)]

theorem readLines_append (P : Parser K) (file : Line) (a b : List Line) (f : Found K) :
    readLines P file (a ++ b) f = match readLines P file a f with
      | .error e => .error e
      | .ok f => readLines P file b f := by
  induction a generalizing f with
  | nil => rfl
  | cons l a ih =>
    simp only [List.cons_append, readLines]
    cases readLine P file f l with
    | error e => rfl
    | ok f => exact ih f

theorem readLines_plain (P : Parser K) (file : Line) (a : List Line) (h : ∀ l ∈ a, Plain l) (f : Found K) : readLines P file a f = .ok f := by
  induction a with
  | nil => rfl
  | cons l a ih =>
    unfold readLines
    rw [readLine_plain P file f (h l (by simp))]
    exact ih fun x hx => h x (by simp [hx])

theorem readLine_args (P : Parser K) (file : Line) (f : Found K) {l : Line} {r : Run K} (h : ArgsLine P l r) :
    readLine P file f l = .ok { f with
      adaptive := f.adaptive.put file (if r.adaptive then 1 else 0)
      minSamples := f.minSamples.put file r.minSamples
      maxSamples := f.maxSamples.put file r.maxSamples } := by
  obtain ⟨m, hm, hm'⟩ := h.min
  obtain ⟨n, hn, hn'⟩ := h.max
  have ha := search_field h.adaptive
  unfold readLine readArgs
  rw [if_pos ((occurs_iff _ _).2 h.tag), ha]
  simp only
  rw [search_field hm]
  simp only [hm']
  rw [search_field hn]
  simp only [hn']
  rw [if_neg (by rw [List.isPrefixOf_iff_prefix]; exact h.start.2), if_neg (by rw [List.isPrefixOf_iff_prefix]; exact h.start.1)]
  cases r.adaptive <;> rfl

theorem readLine_solved (P : Parser K) (file : Line) (f : Found K) (solved : Bool) :
    readLine P file f ("Solved: ".toList ++ if solved then "True".toList else "False".toList) =
      .ok { f with successes := f.successes.put file (if solved then 1 else 0) } := by
  have e : occurs "Namespace".toList ("Solved: ".toList ++ if solved then "True".toList else "False".toList) = false := by
    cases solved <;> decide
  have e1 : "Solved:".toList.isPrefixOf ("Solved: ".toList ++ if solved then "True".toList else "False".toList) = true := by
    cases solved <;> decide
  have e2 : "Time:".toList.isPrefixOf ("Solved: ".toList ++ if solved then "True".toList else "False".toList) = false := by
    cases solved <;> decide
  have e3 : occurs "True".toList (strip ("Solved: ".toList ++ if solved then "True".toList else "False".toList)) = solved := by
    cases solved <;> decide
  unfold readLine readArgs
  simp only [e, e1, e2, e3]
  rfl

theorem readLine_time (P : Parser K) (file : Line) (f : Found K) {t : Line} {x : K} (hx : P.float t = some x) (ht : t ≠ [])
    (hw : ∀ c ∈ t, c.isWhitespace = false) (hn : ¬ "Namespace".toList <:+: "Time: ".toList ++ t) :
    readLine P file f ("Time: ".toList ++ t) = .ok { f with times := f.times.put file x } := by
  have e : occurs "Namespace".toList ("Time: ".toList ++ t) = false := occurs_false hn
  have e1 : "Solved:".toList.isPrefixOf ("Time: ".toList ++ t) = false := by rfl
  have e2 : "Time:".toList.isPrefixOf ("Time: ".toList ++ t) = true := by
    rw [List.isPrefixOf_iff_prefix]; exact ⟨' ' :: t, rfl⟩
  have e3 : strip ("Time: ".toList ++ t) = "Time: ".toList ++ t := by
    obtain ⟨z, hz⟩ : ∃ z, t.getLast? = some z := by
      cases h : t.getLast? with
      | none => exact absurd (List.getLast?_eq_none_iff.1 h) ht
      | some z => exact ⟨z, rfl⟩
    refine strip_id (a := 'T') (z := z) rfl (by decide) ?_ (hw z (List.mem_of_getLast? hz))
    rw [List.getLast?_append, hz]
    rfl
  have e4 : ' ' ∉ t := by
    intro hc
    exact absurd (hw ' ' hc) (by decide)
  unfold readLine readArgs
  simp only [e, e1, e2, e3, deleteFrom_time e4, hx]
  rfl

theorem readLines_logged (P : Parser K) (items : List (Line × Run K)) (file : Line) {log : List Line} {r : Run K} (h : Logged P log r)
    (hfile : file ∉ items.map Prod.fst) : readLines P file log (foundOf items) = .ok (foundOf (items ++ [(file, r)])) := by
  obtain ⟨a, args, b, hargs, hplain, hlog⟩ := h
  have k1 : ∀ {γ : Type} (g : Line × Run K → γ), file ∉ (items.map fun x => (x.1, g x)).map Prod.fst := by
    intro γ g
    simpa using hfile
  have k2 : ∀ {γ : Type} (g : Bool × K → γ),
      file ∉ (items.filterMap fun x => x.2.outcome.map fun o => (x.1, g o)).map Prod.fst := by
    intro γ g hc
    simp only [List.mem_map, List.mem_filterMap, Option.map_eq_some_iff] at hc
    obtain ⟨y, ⟨x, hx, o, _, rfl⟩, hy⟩ := hc
    exact hfile (List.mem_map.2 ⟨x, hx, hy⟩)
  have k3 : ∀ (g : Bool × K → K),
      file ∉ (items.filterMap fun x => x.2.outcome.map fun o => (x.1, g o)).map Prod.fst := by
    intro g hc
    simp only [List.mem_map, List.mem_filterMap, Option.map_eq_some_iff] at hc
    obtain ⟨y, ⟨x, hx, o, _, rfl⟩, hy⟩ := hc
    exact hfile (List.mem_map.2 ⟨x, hx, hy⟩)
  have step : ∀ f : Found K, readLines P file (a ++ args :: b) f = .ok { f with
      adaptive := f.adaptive.put file (if r.adaptive then 1 else 0)
      minSamples := f.minSamples.put file r.minSamples
      maxSamples := f.maxSamples.put file r.maxSamples } := by
    intro f
    rw [readLines_append, readLines_plain P file a (fun l hl => hplain l (by simp [hl]))]
    simp only [readLines]
    rw [readLine_args P file f hargs]
    simp only
    rw [readLines_plain P file b (fun l hl => hplain l (by simp [hl]))]
  cases ho : r.outcome with
  | none =>
    rw [ho] at hlog
    simp only at hlog
    rw [hlog, step]
    simp only [foundOf]
    rw [put_new _ _ (k1 _), put_new _ _ (k1 _), put_new _ _ (k1 _)]
    simp [ho]
  | some o =>
    obtain ⟨solved, time⟩ := o
    rw [ho] at hlog
    simp only at hlog
    obtain ⟨c, d, t, hcd, ht, hne, hw, hn, hlog⟩ := hlog
    rw [hlog, List.append_assoc, readLines_append, step]
    simp only [List.cons_append, readLines]
    rw [readLine_solved]
    simp only
    rw [readLines_append, readLines_plain P file c (fun l hl => hcd l (by simp [hl]))]
    simp only [readLines]
    rw [readLine_time P file _ ht hne hw hn]
    simp only
    rw [readLines_plain P file d (fun l hl => hcd l (by simp [hl]))]
    simp only [foundOf]
    rw [put_new _ _ (k1 _), put_new _ _ (k1 _), put_new _ _ (k1 _), put_new _ _ (k2 _), put_new _ _ (k3 _)]
    simp [ho]

theorem readFiles_logged (P : Parser K) (files : List File) : ∀ (runs : List (Run K)) (items : List (Line × Run K)),
    List.Forall₂ (fun x r => Logged P x.2 r) (files.filter isLog) runs →
    (items.map Prod.fst ++ (files.filter isLog).map Prod.fst).Nodup →
    readFiles P files (foundOf items) = .ok (foundOf (items ++ ((files.filter isLog).map Prod.fst).zip runs)) := by
  induction files with
  | nil => intro runs items h _; cases h; simp [readFiles]
  | cons x files ih =>
    intro runs items h hn
    unfold readFiles
    by_cases hx : isLog x
    · rw [if_pos hx]
      rw [List.filter_cons_of_pos hx] at h hn ⊢
      obtain ⟨r, runs', h1, h2, rfl⟩ := List.forall₂_cons_left_iff.1 h
      have hfile : x.1 ∉ items.map Prod.fst := by
        intro hc
        rw [List.nodup_append] at hn
        exact hn.2.2 _ hc x.1 (by simp) rfl
      rw [readLines_logged P items x.1 h1 hfile]
      simp only
      rw [ih runs' (items ++ [(x.1, r)]) h2 (by simpa using hn)]
      simp
    · rw [if_neg hx]
      rw [List.filter_cons_of_neg hx] at h hn ⊢
      exact ih runs items h hn

/-- The groups after these runs. -/
structure Grouped (runs : List (Run K)) (p : Plot K) : Prop where
  keys : (p.successes.map Prod.fst).Nodup
  successes : ∀ g, p.successes.get g = if outcomes runs g = [] then none else some ((outcomes runs g).map fun o => if o.1 then 1 else 0)
  times : ∀ g, p.times.get g = if outcomes runs g = [] then none else some ((outcomes runs g).map fun o => o.2)

theorem outcomes_snoc (runs : List (Run K)) (r : Run K) (g : Group) :
    outcomes (runs ++ [r]) g = outcomes runs g ++ if r.group = g then r.outcome.toList else [] := by
  unfold outcomes
  rw [List.filter_append, List.filterMap_append]
  congr 1
  by_cases h : r.group = g
  · rw [if_pos h, List.filter_cons_of_pos (by simpa using h)]
    cases ho : r.outcome <;> simp [ho]
  · rw [if_neg h, List.filter_cons_of_neg (by simpa using h)]
    rfl

theorem group_logged (items : List (Line × Run K)) (hn : (items.map Prod.fst).Nodup) : ∀ (rest done : List (Line × Run K)) (p : Plot K),
    items = done ++ rest → Grouped (done.map Prod.snd) p →
    ∃ q, group (foundOf items) (foundOf rest).times p = .ok q ∧ Grouped (items.map Prod.snd) q := by
  intro rest
  induction rest with
  | nil =>
    intro done p hi hp
    rw [List.append_nil] at hi
    subst hi
    exact ⟨p, rfl, hp⟩
  | cons x rest ih =>
    intro done p hi hp
    obtain ⟨file, r⟩ := x
    have hmem : (file, r) ∈ items := by rw [hi]; simp
    cases ho : r.outcome with
    | none =>
      have e : (foundOf ((file, r) :: rest)).times = (foundOf rest).times := by simp [foundOf, ho]
      rw [e]
      apply ih (done ++ [(file, r)]) p (by rw [hi]; simp)
      have e' : ∀ g, outcomes ((done ++ [(file, r)]).map Prod.snd) g = outcomes (done.map Prod.snd) g := by
        intro g
        rw [List.map_append, List.map_cons, List.map_nil, outcomes_snoc, ho]
        simp
      exact ⟨hp.keys, fun g => by rw [e', hp.successes], fun g => by rw [e', hp.times]⟩
    | some o =>
      obtain ⟨solved, time⟩ := o
      have e : (foundOf ((file, r) :: rest)).times = (file, time) :: (foundOf rest).times := by simp [foundOf, ho]
      have n1 : ∀ {γ : Type} (g : Line × Run K → γ), ((items.map fun x => (x.1, g x)).map Prod.fst).Nodup := by
        intro γ g
        rw [List.map_map]
        exact hn
      have n2 : ((items.filterMap fun x => x.2.outcome.map fun o => (x.1, if o.1 then (1 : ℤ) else 0)).map Prod.fst).Nodup := by
        refine List.Nodup.sublist (List.Sublist.trans ?_ (List.Sublist.refl _)) hn
        clear hn hi hmem n1 ih
        induction items with
        | nil => simp
        | cons y items ih' =>
          cases hy : y.2.outcome with
          | none =>
            rw [List.filterMap_cons_none (by simp [hy])]
            exact ih'.trans (by simp)
          | some o =>
            rw [List.filterMap_cons_some (b := (y.1, if o.1 then (1 : ℤ) else 0)) (by simp [hy])]
            simpa using ih'
      rw [e]
      unfold group
      have g1 : (foundOf items).minSamples.get file = some r.minSamples := get_mem _ (n1 _) (List.mem_map.2 ⟨_, hmem, rfl⟩)
      have g2 : (foundOf items).maxSamples.get file = some r.maxSamples := get_mem _ (n1 _) (List.mem_map.2 ⟨_, hmem, rfl⟩)
      have g3 : (foundOf items).adaptive.get file = some (if r.adaptive then 1 else 0) := get_mem _ (n1 _) (List.mem_map.2 ⟨_, hmem, rfl⟩)
      have g4 : (foundOf items).successes.get file = some (if solved then 1 else 0) :=
        get_mem _ n2 (List.mem_filterMap.2 ⟨_, hmem, by simp [ho]⟩)
      rw [g1, g2, g3, g4]
      simp only
      apply ih (done ++ [(file, r)]) _ (by rw [hi]; simp)
      have e' : ∀ g, outcomes ((done ++ [(file, r)]).map Prod.snd) g =
          outcomes (done.map Prod.snd) g ++ if r.group = g then [(solved, time)] else [] := by
        intro g
        rw [List.map_append, List.map_cons, List.map_nil, outcomes_snoc, ho]
        simp
      have hg : (r.minSamples, r.maxSamples, if r.adaptive then (1 : ℤ) else 0) = r.group := rfl
      refine ⟨(put_keys _ _ _ hp.keys).1, fun g => ?_, fun g => ?_⟩
      · rw [e', hg, get_push, hp.successes, hp.successes]
        by_cases h : r.group = g
        · subst h
          simp only [if_true]
          by_cases h0 : outcomes (done.map Prod.snd) r.group = []
          · simp [h0]
          · simp [h0]
        · simp [h]
      · rw [e', hg, get_push, hp.times, hp.times]
        by_cases h : r.group = g
        · subst h
          simp only [if_true]
          by_cases h0 : outcomes (done.map Prod.snd) r.group = []
          · simp [h0]
          · simp [h0]
        · simp [h]

/-- C109, the groups: for logs with different names in the expected format, in whatever order they are found, the plot has for every
setting the answers and the times of exactly the runs with this setting, and no others. Missing: runs that ended with an exception are
left out of the success rate (`C109_crashed_false`); files of the same name replace each other (`C109_overwritten_false`); and the logs
that run.py writes are not in the expected format (`C109_current_false`). -/
theorem C109_groups_partial (P : Parser K) (files : List File) (runs : List (Run K))
    (hlog : List.Forall₂ (fun x r => Logged P x.2 r) (files.filter isLog) runs) (hname : ((files.filter isLog).map Prod.fst).Nodup) :
    ∃ p, plot P files = .ok p ∧ (p.successes.map Prod.fst).Nodup ∧
      (∀ g, p.successes.get g = if outcomes runs g = [] then none else some ((outcomes runs g).map fun o => if o.1 then 1 else 0)) ∧
      (∀ g, p.times.get g = if outcomes runs g = [] then none else some ((outcomes runs g).map fun o => o.2)) := by
  have h := readFiles_logged P files runs [] hlog (by simpa using hname)
  rw [List.nil_append] at h
  have hlen := hlog.length_eq
  have hz : (((files.filter isLog).map Prod.fst).zip runs).map Prod.fst = (files.filter isLog).map Prod.fst := by
    rw [List.map_fst_zip]; simp [hlen]
  have hz' : (((files.filter isLog).map Prod.fst).zip runs).map Prod.snd = runs := by
    rw [List.map_snd_zip]; simp [hlen]
  obtain ⟨p, hp, hg⟩ := group_logged (((files.filter isLog).map Prod.fst).zip runs) (by rw [hz]; exact hname) _ [] ⟨[], []⟩ rfl
    ⟨by simp, fun g => by simp [outcomes, Dict.get], fun g => by simp [outcomes, Dict.get]⟩
  rw [hz'] at hg
  refine ⟨p, ?_, hg.keys, hg.successes, hg.times⟩
  unfold plot
  rw [show (⟨[], [], [], [], []⟩ : Found K) = foundOf [] from rfl, h]
  exact hp

theorem sum_solved [Field K] (os : List (Bool × K)) :
    ((os.map fun o => if o.1 then (1 : ℤ) else 0).map fun (s : ℤ) => (s : K)).sum = ((os.filter fun o => o.1).length : K) := by
  induction os with
  | nil => simp
  | cons o os ih =>
    simp only [List.map_cons, List.sum_cons, ih]
    cases h : o.1
    · simp [h]
    · simp [h, add_comm]

/-- C109, the bars: for logs with different names in the expected format there is one bar for every setting with a run that was not ended
by an exception; its height is the fraction of these runs that were solved, and the mean of their times. Missing: as for
`C109_groups_partial`. -/
theorem C109_rates_partial [Field K] (P : Parser K) (files : List File) (runs : List (Run K))
    (hlog : List.Forall₂ (fun x r => Logged P x.2 r) (files.filter isLog) runs) (hname : ((files.filter isLog).map Prod.fst).Nodup) :
    ∃ p, plot P files = .ok p ∧ ((bars p).map Prod.fst).Nodup ∧ ∀ g rate time, (g, rate, time) ∈ bars p ↔ outcomes runs g ≠ [] ∧
      rate = (((outcomes runs g).filter fun o => o.1).length : K) / ((outcomes runs g).length : K) ∧
      time = ((outcomes runs g).map fun o => o.2).sum / ((outcomes runs g).length : K) := by
  obtain ⟨p, hp, hk, hs, ht⟩ := C109_groups_partial P files runs hlog hname
  refine ⟨p, hp, by simpa [bars, Function.comp_def] using hk, fun g rate time => ?_⟩
  constructor
  · intro h
    obtain ⟨x, hx, he⟩ := List.mem_map.1 h
    obtain ⟨g', xs⟩ := x
    cases he
    have hget := get_mem _ hk hx
    rw [hs] at hget
    split at hget
    · cases hget
    · rename_i hne
      cases hget
      refine ⟨hne, ?_, ?_⟩
      · rw [mean, sum_solved]
        simp
      · rw [ht, if_neg hne]
        simp [mean]
  · rintro ⟨hne, rfl, rfl⟩
    have hget := hs g
    rw [if_neg hne] at hget
    have hmem : (g, (outcomes runs g).map fun o => if o.1 then (1 : ℤ) else 0) ∈ p.successes := by
      by_contra hc
      by_cases hm : g ∈ p.successes.map Prod.fst
      · obtain ⟨⟨g', xs⟩, hx, rfl⟩ := List.mem_map.1 hm
        have := get_mem _ hk hx
        rw [hget] at this
        apply hc
        rw [Option.some.inj this]
        exact hx
      · rw [get_none _ hm] at hget
        cases hget
    refine List.mem_map.2 ⟨_, hmem, ?_⟩
    simp only [Prod.mk.injEq, true_and]
    refine ⟨?_, ?_⟩
    · rw [mean, sum_solved]
      simp
    · rw [ht, if_neg hne]
      simp [mean]

/-! ### Logs of the present run.py -/

theorem infix_split {sub a b : Line} {c : Char} (hc : c ∉ sub) (h : sub <:+: a ++ c :: b) : sub <:+: a ∨ sub <:+: b := by
  obtain ⟨u, v, h⟩ := h
  rw [List.append_assoc, List.append_eq_append_iff] at h
  rcases h with ⟨w, rfl, hw⟩ | ⟨w, hu, hw⟩
  · rw [List.append_eq_append_iff] at hw
    rcases hw with ⟨w', rfl, hw'⟩ | ⟨w', hs, hw'⟩
    · exact Or.inl ⟨u, w', by simp⟩
    · cases w' with
      | nil =>
        rw [List.append_nil] at hs
        subst hs
        exact Or.inl ⟨u, [], by simp⟩
      | cons d w' =>
        rw [List.cons_append] at hw'
        injection hw' with h1 h2
        subst h1
        exact absurd (by rw [hs]; simp) hc
  · cases w with
    | nil =>
      rw [List.nil_append] at hw
      cases sub with
      | nil => exact Or.inl (List.nil_infix)
      | cons d sub =>
        rw [List.cons_append] at hw
        injection hw with h1 h2
        subst h1
        exact absurd (by simp) hc
    | cons d w =>
      rw [List.cons_append] at hw
      injection hw with h1 h2
      exact Or.inr ⟨w, v, by rw [h2]; simp⟩

theorem no_args (P : Parser K) {file l : Line} {f f' : Found K} (h : ¬ "Namespace".toList <:+: l) (hr : readLine P file f l = .ok f') :
    f'.minSamples = f.minSamples ∧ (f.times ≠ [] → f'.times ≠ []) ∧ ("Time:".toList <+: l → f'.times ≠ []) := by
  have hput : ∀ (d : Dict Line K) (k : Line) (v : K), d.put k v ≠ [] := by
    intro d k v
    cases d with
    | nil => simp [Dict.put]
    | cons x d =>
      unfold Dict.put
      split <;> simp
  unfold readLine readArgs at hr
  rw [if_neg (fun hc => h ((occurs_iff _ _).1 hc))] at hr
  simp only at hr
  by_cases ht : "Time:".toList.isPrefixOf l = true
  · rw [if_pos ht] at hr
    split at hr
    · cases hr
    · cases hr
      refine ⟨?_, fun _ => hput _ _ _, fun _ => hput _ _ _⟩
      simp only
      split <;> rfl
  · rw [if_neg ht] at hr
    cases hr
    refine ⟨by split <;> rfl, fun h => by split <;> exact h, fun hc => ?_⟩
    rw [List.isPrefixOf_iff_prefix] at ht
    exact absurd hc ht

theorem no_args_lines (P : Parser K) (file : Line) (ls : List Line) : ∀ (f f' : Found K), (∀ l ∈ ls, ¬ "Namespace".toList <:+: l) →
    readLines P file ls f = .ok f' →
    f'.minSamples = f.minSamples ∧ (f.times ≠ [] → f'.times ≠ []) ∧ ((∃ l ∈ ls, "Time:".toList <+: l) → f'.times ≠ []) := by
  induction ls with
  | nil =>
    intro f f' _ h
    cases h
    exact ⟨rfl, id, by simp⟩
  | cons l ls ih =>
    intro f f' hn h
    unfold readLines at h
    cases hl : readLine P file f l with
    | error e => rw [hl] at h; cases h
    | ok g =>
      rw [hl] at h
      obtain ⟨a1, a2, a3⟩ := no_args P (hn l (by simp)) hl
      obtain ⟨b1, b2, b3⟩ := ih g f' (fun x hx => hn x (by simp [hx])) h
      refine ⟨b1.trans a1, fun h => b2 (a2 h), ?_⟩
      rintro ⟨x, hx, hx'⟩
      rcases List.mem_cons.1 hx with rfl | hx
      · exact b2 (a3 hx')
      · exact b3 ⟨x, hx, hx'⟩

theorem no_args_files (P : Parser K) (files : List File) : ∀ (f f' : Found K),
    (∀ x ∈ files, isLog x → ∀ l ∈ x.2, ¬ "Namespace".toList <:+: l) → readFiles P files f = .ok f' →
    f'.minSamples = f.minSamples ∧ (f.times ≠ [] → f'.times ≠ []) ∧
      ((∃ x ∈ files, isLog x ∧ ∃ l ∈ x.2, "Time:".toList <+: l) → f'.times ≠ []) := by
  induction files with
  | nil =>
    intro f f' _ h
    cases h
    exact ⟨rfl, id, by simp⟩
  | cons x files ih =>
    intro f f' hn h
    unfold readFiles at h
    by_cases hx : isLog x
    · rw [if_pos hx] at h
      cases hl : readLines P x.1 x.2 f with
      | error e => rw [hl] at h; cases h
      | ok g =>
        rw [hl] at h
        obtain ⟨a1, a2, a3⟩ := no_args_lines P x.1 x.2 f g (hn x (by simp) hx) hl
        obtain ⟨b1, b2, b3⟩ := ih g f' (fun y hy => hn y (by simp [hy])) h
        refine ⟨b1.trans a1, fun h => b2 (a2 h), ?_⟩
        rintro ⟨y, hy, hy', hy''⟩
        rcases List.mem_cons.1 hy with rfl | hy
        · exact b2 (a3 hy'')
        · exact b3 ⟨y, hy, hy', hy''⟩
    · rw [if_neg hx] at h
      obtain ⟨b1, b2, b3⟩ := ih f f' (fun y hy => hn y (by simp [hy])) h
      refine ⟨b1, b2, ?_⟩
      rintro ⟨y, hy, hy', hy''⟩
      rcases List.mem_cons.1 hy with rfl | hy
      · exact absurd hy' hx
      · exact b3 ⟨y, hy, hy', hy''⟩

/-- A run of the present run.py: what goes into its log, without the word Namespace in it. -/
structure PrintedRun where
  args : List (Line × Line)
  world : List Line
  delta : Line
  minSamples : Line
  maxSamples : Line
  solver : List Line
  outcome : Option (Bool × List Line × Line)
  err : List Line
  hargs : ∀ x ∈ args, ¬ "Namespace".toList <:+: x.1 ∧ ¬ "Namespace".toList <:+: x.2
  hworld : ∀ l ∈ world ++ solver ++ err ++ [delta, minSamples, maxSamples], ¬ "Namespace".toList <:+: l
  houtcome : ∀ o ∈ outcome, ∀ l ∈ o.2.2 :: o.2.1, ¬ "Namespace".toList <:+: l

/-- Its log. -/
def PrintedRun.log (r : PrintedRun) : List Line :=
  mainLog r.args r.world r.delta r.minSamples r.maxSamples r.solver r.outcome r.err

theorem no_tag_cons {c : Char} {b : Line} (hc : c ∉ "Namespace".toList) (hb : ¬ "Namespace".toList <:+: b) : ¬ "Namespace".toList <:+: c :: b := by
  intro h
  rcases infix_split (a := []) hc h with h | h
  · exact absurd h (by decide)
  · exact hb h

theorem no_tag_append {c : Char} {a b : Line} (hc : c ∉ "Namespace".toList) (ha : ¬ "Namespace".toList <:+: a) (hb : ¬ "Namespace".toList <:+: b) :
    ¬ "Namespace".toList <:+: a ++ c :: b := by
  intro h
  rcases infix_split hc h with h | h
  · exact ha h
  · exact hb h

theorem dictText_no_tag (args : List (Line × Line)) (h : ∀ x ∈ args, ¬ "Namespace".toList <:+: x.1 ∧ ¬ "Namespace".toList <:+: x.2) :
    ¬ "Namespace".toList <:+: dictText args := by
  have hrest : ∀ (v : Line) (rest : List (Line × Line)), ¬ "Namespace".toList <:+: v →
      (∀ x ∈ rest, ¬ "Namespace".toList <:+: x.1 ∧ ¬ "Namespace".toList <:+: x.2) →
      ¬ "Namespace".toList <:+: v ++ ((rest.map fun x => ", '".toList ++ x.1 ++ "': ".toList ++ x.2).flatten ++ "}".toList) := by
    intro v rest
    induction rest generalizing v with
    | nil =>
      intro hv _
      exact no_tag_append (c := '}') (b := []) (by decide) hv (by decide)
    | cons x rest ih =>
      intro hv hx
      obtain ⟨h1, h2⟩ := hx x (by simp)
      have e : v ++ (((x :: rest).map fun x => ", '".toList ++ x.1 ++ "': ".toList ++ x.2).flatten ++ "}".toList) =
          v ++ ',' :: ' ' :: '\'' :: (x.1 ++ '\'' :: ':' :: ' ' ::
            (x.2 ++ ((rest.map fun x => ", '".toList ++ x.1 ++ "': ".toList ++ x.2).flatten ++ "}".toList))) := by
        simp
      rw [e]
      refine no_tag_append (by decide) hv (no_tag_cons (by decide) (no_tag_cons (by decide) (no_tag_append (by decide) h1 ?_)))
      exact no_tag_cons (by decide) (no_tag_cons (by decide) (ih x.2 h2 fun y hy => hx y (by simp [hy])))
  cases args with
  | nil => decide
  | cons x rest =>
    obtain ⟨k, v⟩ := x
    obtain ⟨h1, h2⟩ := h (k, v) (by simp)
    have e : dictText ((k, v) :: rest) = '{' :: '\'' :: (k ++ '\'' :: ':' :: ' ' ::
        (v ++ ((rest.map fun x => ", '".toList ++ x.1 ++ "': ".toList ++ x.2).flatten ++ "}".toList))) := by
      simp [dictText]
    rw [e]
    refine no_tag_cons (by decide) (no_tag_cons (by decide) (no_tag_append (by decide) h1 ?_))
    exact no_tag_cons (by decide) (no_tag_cons (by decide) (hrest v rest h2 fun y hy => h y (by simp [hy])))

theorem PrintedRun.no_tag (r : PrintedRun) : ∀ l ∈ r.log, ¬ "Namespace".toList <:+: l := by
  have lit : ∀ (a b : Line), ¬ "Namespace".toList <:+: a → ¬ "Namespace".toList <:+: b → ¬ "Namespace".toList <:+: a ++ ' ' :: b :=
    fun a b => no_tag_append (by decide)
  have hw := r.hworld
  have ho := r.houtcome
  intro l hl
  unfold PrintedRun.log mainLog at hl
  simp only [List.append_assoc, List.mem_append, List.mem_cons, List.not_mem_nil, or_false] at hl hw
  rcases hl with (rfl | rfl) | hl | (rfl | rfl | rfl) | hl | hl
  · decide
  · exact dictText_no_tag _ r.hargs
  · exact hw l (by tauto)
  · exact lit "Delta:".toList _ (by decide) (hw _ (by tauto))
  · exact lit "Min samples:".toList _ (by decide) (hw _ (by tauto))
  · exact lit "Max samples:".toList _ (by decide) (hw _ (by tauto))
  · exact hw l (by tauto)
  · cases hout : r.outcome with
    | none =>
      rw [hout] at hl
      exact hw l (by tauto)
    | some o =>
      obtain ⟨solved, plan, time⟩ := o
      rw [hout] at hl ho
      have ho' := ho _ rfl
      simp only [List.mem_cons, List.mem_append, List.not_mem_nil, or_false] at hl
      rcases hl with (rfl | hl) | rfl
      · cases solved <;> decide
      · exact ho' l (by simp [hl])
      · exact lit "Time:".toList _ (by decide) (ho' _ (by simp))

/-- C109 is false for the logs of the present run.py: it prints the arguments as a dictionary, the plot looks for `Namespace`. Whatever the
runs are, as soon as one of them has ended without an exception there is no plot. -/
theorem C109_current_false (P : Parser K) (files : List File) (hfiles : ∀ x ∈ files, isLog x → ∃ r : PrintedRun, x.2 = r.log)
    (hdone : ∃ x ∈ files, isLog x ∧ ∃ r : PrintedRun, x.2 = r.log ∧ r.outcome ≠ none) : ∀ p, plot P files ≠ .ok p := by
  intro p hp
  unfold plot at hp
  cases hf : readFiles P files ⟨[], [], [], [], []⟩ with
  | error e => rw [hf] at hp; cases hp
  | ok f =>
    rw [hf] at hp
    simp only at hp
    obtain ⟨h1, _, h3⟩ := no_args_files P files _ f (by
      intro x hx hx' l hl
      obtain ⟨r, hr⟩ := hfiles x hx hx'
      rw [hr] at hl
      exact r.no_tag l hl) hf
    have ht : f.times ≠ [] := by
      apply h3
      obtain ⟨x, hx, hx', r, hr, hout⟩ := hdone
      obtain ⟨o, ho⟩ := Option.ne_none_iff_exists'.1 hout
      refine ⟨x, hx, hx', "Time: ".toList ++ o.2.2, ?_, ⟨' ' :: o.2.2, rfl⟩⟩
      rw [hr]
      unfold PrintedRun.log mainLog
      rw [ho]
      simp
    cases hts : f.times with
    | nil => exact ht hts
    | cons x rest =>
      obtain ⟨k, t⟩ := x
      rw [hts] at hp
      unfold group at hp
      rw [h1] at hp
      simp [Dict.get] at hp

/-! ### Examples -/

/-- A field of a concrete text. -/
theorem hasField_of {key value text : Line} (u v : Line) (h : text = u ++ key ++ '=' :: value ++ ',' :: v) (h1 : value ≠ []) (h2 : ' ' ∉ value)
    (h3 : ',' ∉ value) (hfirst : ∀ i < u.length, (key ++ ['=']).isPrefixOf (text.drop i) = false) : HasField key value text := by
  refine ⟨u, v, h, h1, h2, h3, fun u' v' h' => ?_⟩
  by_contra hc
  have := hfirst u'.length (by omega)
  rw [h', List.append_assoc, List.drop_left, Bool.eq_false_iff] at this
  exact this ((List.isPrefixOf_iff_prefix).2 ⟨v', by simp⟩)

/-- Numbers of the examples. -/
def smallParser : Parser ℚ where
  int t := if t = "10".toList then some 10 else if t = "20".toList then some 20 else none
  float t := if t = "1.5".toList then some (3 / 2) else if t = "2.5".toList then some (5 / 2) else none

/-- The arguments of the examples as older versions printed them. -/
def oldArgs : Line := "Arguments: Namespace(adaptive_n=False, max_samples=20, min_samples=10, seed=1, vis=False)".toList

/-- The log of a run of 2.5 s (solved) or 1.5 s (not solved). -/
def oldLog (solved : Bool) : List Line :=
  [oldArgs, "Path: []".toList, "Solved: ".toList ++ if solved then "True".toList else "False".toList, "Cost: 3".toList,
    "Time: ".toList ++ if solved then "2.5".toList else "1.5".toList]

/-- The log of a run that ended with an exception. -/
def crashedLog : List Line := [oldArgs, "AssertionError: Goal in collision".toList]

theorem oldArgs_line (o : Option (Bool × ℚ)) : ArgsLine smallParser oldArgs ⟨10, 20, false, o⟩ where
  tag := by decide +kernel
  start := by decide +kernel
  adaptive := hasField_of (value := "False".toList) "Arguments: Namespace(".toList " max_samples=20, min_samples=10, seed=1, vis=False)".toList
    (by decide +kernel) (by decide) (by decide) (by decide) (by decide +kernel)
  min := ⟨"10".toList, hasField_of "Arguments: Namespace(adaptive_n=False, max_samples=20, ".toList " seed=1, vis=False)".toList
    (by decide +kernel) (by decide) (by decide) (by decide) (by decide +kernel), (by decide +kernel : smallParser.int "10".toList = some 10)⟩
  max := ⟨"20".toList, hasField_of "Arguments: Namespace(adaptive_n=False, ".toList " min_samples=10, seed=1, vis=False)".toList
    (by decide +kernel) (by decide) (by decide) (by decide) (by decide +kernel), (by decide +kernel : smallParser.int "20".toList = some 20)⟩

theorem oldLog_logged (solved : Bool) :
    Logged smallParser (oldLog solved) ⟨10, 20, false, some (solved, if solved then 5 / 2 else 3 / 2)⟩ := by
  refine ⟨[], oldArgs, ["Path: []".toList], oldArgs_line _, ?_, ["Cost: 3".toList], [],
    if solved then "2.5".toList else "1.5".toList, ?_, ?_, ?_, ?_, ?_, ?_⟩
  · intro l hl
    have : l = "Path: []".toList := by simpa using hl
    subst this
    exact ⟨by decide, by decide, by decide⟩
  · intro l hl
    have : l = "Cost: 3".toList := by simpa using hl
    subst this
    exact ⟨by decide, by decide, by decide⟩
  · cases solved <;> decide +kernel
  · cases solved <;> decide
  · cases solved <;> decide
  · cases solved <;> decide
  · rfl

theorem crashedLog_logged : Logged smallParser crashedLog ⟨10, 20, false, none⟩ := by
  refine ⟨[], oldArgs, ["AssertionError: Goal in collision".toList], oldArgs_line _, ?_, rfl⟩
  intro l hl
  have : l = "AssertionError: Goal in collision".toList := by simpa using hl
  subst this
  exact ⟨by decide, by decide, by decide⟩

/-- Two logs and a file that is not a log. -/
theorem C109_nonvacuous : List.Forall₂ (fun (x : File) r => Logged smallParser x.2 r)
      (List.filter isLog [("1.log".toList, oldLog true), ("plan.pddl".toList, []), ("2.log".toList, oldLog false)])
      [⟨10, 20, false, some (true, 5 / 2)⟩, ⟨10, 20, false, some (false, 3 / 2)⟩] ∧
    (plot smallParser [("1.log".toList, oldLog true), ("plan.pddl".toList, []), ("2.log".toList, oldLog false)]).map bars =
      .ok [((10, 20, 0), 1 / 2, 2)] := by
  refine ⟨?_, by decide +kernel⟩
  rw [show List.filter isLog [("1.log".toList, oldLog true), ("plan.pddl".toList, []), ("2.log".toList, oldLog false)] =
    [("1.log".toList, oldLog true), ("2.log".toList, oldLog false)] by decide +kernel]
  exact List.Forall₂.cons (oldLog_logged true) (List.Forall₂.cons (oldLog_logged false) List.Forall₂.nil)

/-- C109 is false for runs that end with an exception: one of two runs is solved, the other one fails as its goal is in collision; the
success rate in the plot is 1. -/
theorem C109_crashed_false : Logged smallParser (oldLog true) ⟨10, 20, false, some (true, 5 / 2)⟩ ∧
    Logged smallParser crashedLog ⟨10, 20, false, none⟩ ∧
    (plot smallParser [("1.log".toList, oldLog true), ("2.log".toList, crashedLog)]).map bars = .ok [((10, 20, 0), 1, 5 / 2)] :=
  ⟨oldLog_logged true, crashedLog_logged, by decide +kernel⟩

/-- C109 is false for logs of the same name in different directories (the name is the time at the start of the run): only the last one that
is found is in the plot. -/
theorem C109_overwritten_false : Logged smallParser (oldLog true) ⟨10, 20, false, some (true, 5 / 2)⟩ ∧
    Logged smallParser (oldLog false) ⟨10, 20, false, some (false, 3 / 2)⟩ ∧
    (plot smallParser [("1.log".toList, oldLog true), ("1.log".toList, oldLog false)]).map bars = .ok [((10, 20, 0), 0, 3 / 2)] :=
  ⟨oldLog_logged true, oldLog_logged false, by decide +kernel⟩

/-- A run of the present run.py. -/
def nowRun : PrintedRun where
  args := [("adaptive_n".toList, "False".toList), ("max_samples".toList, "20".toList), ("min_samples".toList, "10".toList)]
  world := []
  delta := "0.05".toList
  minSamples := "10".toList
  maxSamples := "20".toList
  solver := ["Path: []".toList]
  outcome := some (true, ["Cost: 3".toList], "2.5".toList)
  err := []
  hargs := by decide
  hworld := by decide
  houtcome := by rintro o ho; cases ho; decide

/-- The assumptions of `C109_current_false` and `C109_bound_false` are met; the first plot raises KeyError, the second ValueError. -/
theorem C109_current_nonvacuous : nowRun.log = ["Experiment arguments:".toList,
      "{'adaptive_n': False, 'max_samples': 20, 'min_samples': 10}".toList, "Delta: 0.05".toList, "Min samples: 10".toList,
      "Max samples: 20".toList, "Path: []".toList, "Solved: True".toList, "Cost: 3".toList, "Time: 2.5".toList] ∧
    (plot smallParser [("1.log".toList, nowRun.log)]).map bars = .error .key ∧
    boundPlot smallParser [("1.log".toList, nowRun.log)] = .error .value ∧ ∀ s, smallParser.float ('M' :: s) = none := by
  refine ⟨by decide +kernel, by decide +kernel, by decide +kernel, fun s => ?_⟩
  simp [smallParser]

/-! ### The other plot -/

theorem strip_head {a : Char} (ha : a.isWhitespace = false) (s : Line) : ∃ s', strip (a :: s) = a :: s' := by
  have h : ∀ l : Line, ∃ l', (l ++ [a]).dropWhile Char.isWhitespace = l' ++ [a] := by
    intro l
    induction l with
    | nil => exact ⟨[], by simp [ha]⟩
    | cons c l ih =>
      rw [List.cons_append, List.dropWhile_cons]
      split
      · exact ih
      · exact ⟨c :: l, rfl⟩
  unfold strip
  rw [List.dropWhile_cons, ha]
  obtain ⟨l', hl'⟩ := h s.reverse
  refine ⟨l'.reverse, ?_⟩
  simp [hl']

theorem marks_stop (P : Parser K) (file l next : Line) (hl : "Delta:".toList <:+: l) (hn : P.float (strip next) = none) (b : List Line) :
    ∀ (a : List Line) (m m' : Marks K), readMarks P file (a ++ l :: next :: b) m ≠ .ok m' := by
  intro a
  induction a with
  | nil =>
    intro m m' h
    rw [List.nil_append, readMarks, if_pos ((occurs_iff _ _).2 hl), hn] at h
    cases h
  | cons c a ih =>
    intro m m' h
    obtain ⟨d, tl, hd⟩ : ∃ d tl, a ++ l :: next :: b = d :: tl := by
      cases a with
      | nil => exact ⟨l, next :: b, rfl⟩
      | cons d a => exact ⟨d, a ++ l :: next :: b, rfl⟩
    rw [List.cons_append, hd, readMarks, ← hd] at h
    split at h
    · cases h
    · split at h
      · cases h
      · exact ih _ _ h

theorem allMarks_stop (P : Parser K) {x : File} (hx : isLog x) (hm : ∀ m m' : Marks K, readMarks P x.1 x.2 m ≠ .ok m') (files : List File)
    (h : x ∈ files) : ∀ m m' : Marks K, readAllMarks P files m ≠ .ok m' := by
  induction files with
  | nil => simp at h
  | cons y files ih =>
    intro m m' hr
    unfold readAllMarks at hr
    rcases List.mem_cons.1 h with rfl | h
    · rw [if_pos hx] at hr
      split at hr
      · cases hr
      · rename_i m1 h1
        exact hm m m1 h1
    · by_cases hy : isLog y
      · rw [if_pos hy] at hr
        split at hr
        · cases hr
        · exact ih h _ _ hr
      · rw [if_neg hy] at hr
        exact ih h _ _ hr

/-- C109 is false for the other plot and the logs of the present run.py: it expects the clearance on the line after `Delta:`, where run.py
prints the sample size. One log is enough that there is no plot (a number does not begin with M). -/
theorem C109_bound_false (P : Parser K) (hM : ∀ s, P.float ('M' :: s) = none) (files : List File) (r : PrintedRun) (x : File) (hx : x ∈ files)
    (hlog : isLog x) (hr : x.2 = r.log) : ∀ ps, boundPlot P files ≠ .ok ps := by
  intro ps h
  unfold boundPlot at h
  have hstop := allMarks_stop P hlog (by
    intro m m'
    obtain ⟨s', hs'⟩ := strip_head (a := 'M') (by decide) ("in samples: ".toList ++ r.minSamples)
    obtain ⟨tl, htl⟩ : ∃ tl, r.log = (["Experiment arguments:".toList, dictText r.args] ++ r.world) ++
        ("Delta: ".toList ++ r.delta) :: ("Min samples: ".toList ++ r.minSamples) :: tl := by
      unfold PrintedRun.log mainLog
      rw [List.append_assoc, List.append_assoc]
      exact ⟨_, rfl⟩
    rw [hr, htl]
    apply marks_stop P x.1 _ _ ((show "Delta:".toList <+: "Delta: ".toList ++ r.delta from ⟨' ' :: r.delta, rfl⟩).isInfix)
    rw [show "Min samples: ".toList ++ r.minSamples = 'M' :: ("in samples: ".toList ++ r.minSamples) from rfl, hs']
    exact hM s') files hx ⟨[], []⟩
  split at h
  · cases h
  · rename_i m hm
    exact hstop m hm

theorem numberLine_strip {P : Parser K} {l : Line} {x : K} (h : NumberLine P l x) : P.float (strip l) = some x := by
  obtain ⟨h1, h2, _, h4⟩ := h
  cases l with
  | nil => exact absurd rfl h1
  | cons a s =>
    rw [strip_id rfl (h2 a List.mem_cons_self) (List.getLast?_eq_some_getLast h1) (h2 _ (List.getLast_mem h1))]
    exact h4

theorem readMarks_other (P : Parser K) (file : Line) {l : Line} (h : Other l) (rest : List Line) (m : Marks K) :
    readMarks P file (l :: rest) m = readMarks P file rest m := by
  cases rest with
  | nil => rfl
  | cons next ls =>
    rw [readMarks]
    simp only [occurs_false h.1, occurs_false h.2, Bool.false_eq_true, if_false]

theorem readMarks_others (P : Parser K) (file : Line) (a : List Line) (h : ∀ l ∈ a, Other l) (rest : List Line) (m : Marks K) :
    readMarks P file (a ++ rest) m = readMarks P file rest m := by
  induction a with
  | nil => rfl
  | cons l a ih => rw [List.cons_append, readMarks_other P file (h l List.mem_cons_self), ih fun l hl => h l (List.mem_cons_of_mem _ hl)]

theorem readMarks_marked (P : Parser K) (file : Line) {log : List Line} {r : MarkedRun K} (h : Marked P log r) (m : Marks K)
    (hn : file ∉ m.numbers.map Prod.fst) (hs : file ∉ m.samples.map Prod.fst) :
    readMarks P file log m = .ok ⟨m.numbers ++ [(file, r.delta)], m.samples ++ r.samples.toList.map fun n => (file, n)⟩ := by
  obtain ⟨a, head, num, b, hab, h1, h2, hnum, h⟩ := h
  have key : ∀ rest, readMarks P file (a ++ head :: num :: rest) m = readMarks P file rest ⟨m.numbers ++ [(file, r.delta)], m.samples⟩ := by
    intro rest
    rw [readMarks_others P file a fun l hl => hab l (List.mem_append_left _ hl), readMarks]
    simp only [(occurs_iff _ _).2 h1, occurs_false h2, Bool.false_eq_true, if_false, if_true, numberLine_strip hnum]
    rw [readMarks_other P file hnum.2.2.1, put_new _ _ hn]
  cases hr : r.samples with
  | none =>
    rw [hr] at h
    simp only at h
    rw [h, key, ← List.append_nil b, readMarks_others P file b fun l hl => hab l (List.mem_append_right _ hl)]
    simp [readMarks]
  | some n =>
    rw [hr] at h
    obtain ⟨head', num', c, hc, h1', h2', hnum', h⟩ := h
    rw [h, key, readMarks_others P file b fun l hl => hab l (List.mem_append_right _ hl), readMarks]
    simp only [(occurs_iff _ _).2 h1', occurs_false h2', Bool.false_eq_true, if_false, if_true, numberLine_strip hnum']
    rw [readMarks_other P file hnum'.2.2.1, put_new _ _ hs, ← List.append_nil c, readMarks_others P file c hc]
    rfl

theorem readAllMarks_marked (P : Parser K) (files : List File) : ∀ (runs : List (MarkedRun K)) (m : Marks K),
    List.Forall₂ (fun x r => Marked P x.2 r) (files.filter isLog) runs →
    (m.numbers.map Prod.fst ++ (files.filter isLog).map Prod.fst).Nodup → (∀ k ∈ m.samples.map Prod.fst, k ∈ m.numbers.map Prod.fst) →
    readAllMarks P files m = .ok ⟨m.numbers ++ List.zipWith (fun x (r : MarkedRun K) => (x.1, r.delta)) (files.filter isLog) runs,
      m.samples ++ (List.zipWith (fun x (r : MarkedRun K) => r.samples.toList.map fun n => (x.1, n)) (files.filter isLog) runs).flatten⟩ := by
  induction files with
  | nil =>
    intro runs m _ _ _
    simp [readAllMarks]
  | cons x files ih =>
    intro runs m hlog hn hsub
    rw [readAllMarks]
    by_cases hx : isLog x
    · rw [if_pos hx]
      rw [List.filter_cons_of_pos hx] at hlog hn ⊢
      cases hlog with
      | @cons _ r _ runs hr hlog =>
        rw [List.map_cons, List.nodup_append] at hn
        have hx1 : x.1 ∉ m.numbers.map Prod.fst := fun h => hn.2.2 _ h _ List.mem_cons_self rfl
        rw [readMarks_marked P x.1 hr m hx1 fun h => hx1 (hsub _ h)]
        simp only
        rw [ih runs _ hlog]
        · simp
        · rw [List.map_append, List.append_assoc, List.nodup_append]
          exact hn
        · intro k hk
          rw [List.map_append, List.mem_append] at hk
          rw [List.map_append, List.mem_append]
          rcases hk with hk | hk
          · exact Or.inl (hsub k hk)
          · right
            cases hs : r.samples with
            | none => simp [hs] at hk
            | some n => simpa [hs] using hk
    · rw [if_neg hx]
      rw [List.filter_cons_of_neg hx] at hlog hn ⊢
      exact ih runs m hlog hn hsub

theorem points_marked (m : Marks K) (hm : (m.numbers.map Prod.fst).Nodup) (items : List (Line × MarkedRun K)) (hi : ∀ x ∈ items, (x.1, x.2.delta) ∈ m.numbers) :
    points m (items.map fun x => x.2.samples.toList.map fun n => (x.1, n)).flatten = .ok (items.filterMap fun x => x.2.samples.map fun n => (x.2.delta, n)) := by
  induction items with
  | nil => rfl
  | cons x items ih =>
    have ih := ih fun y hy => hi y (List.mem_cons_of_mem _ hy)
    rw [List.map_cons, List.flatten_cons, List.filterMap_cons]
    cases hs : x.2.samples with
    | none => simpa using ih
    | some n =>
      simp only [Option.toList_some, List.map_cons, List.map_nil, List.singleton_append, Option.map_some]
      rw [points, get_mem _ hm (hi x List.mem_cons_self)]
      simp only [ih]

/-- C109, the points of the other plot: for logs with different names in the format that it expects there is one point for every run that found a solution, in the order of the
files: the clearance of this run and its number of samples. Missing: run.py does not write this format (`C109_bound_false`). -/
theorem C109_points_partial (P : Parser K) (files : List File) (runs : List (MarkedRun K))
    (hlog : List.Forall₂ (fun x r => Marked P x.2 r) (files.filter isLog) runs) (hname : ((files.filter isLog).map Prod.fst).Nodup) :
    boundPlot P files = .ok (runs.filterMap fun r => r.samples.map fun n => (r.delta, n)) := by
  unfold boundPlot
  rw [readAllMarks_marked P files runs ⟨[], []⟩ hlog (by simpa using hname) (by simp)]
  have hlen := hlog.length_eq
  simp only [List.nil_append]
  have := points_marked (K := K) ⟨List.zipWith (fun x (r : MarkedRun K) => (x.1, r.delta)) (files.filter isLog) runs,
    (List.zipWith (fun x (r : MarkedRun K) => r.samples.toList.map fun n => (x.1, n)) (files.filter isLog) runs).flatten⟩ ?_
    (List.zipWith (fun x r => (x.1, r)) (files.filter isLog) runs) ?_
  · rw [List.map_zipWith] at this
    rw [this]
    congr 1
    clear * - hlen
    generalize files.filter isLog = fs at hlen
    induction fs generalizing runs with
    | nil =>
      cases runs with
      | nil => rfl
      | cons r runs => simp at hlen
    | cons x fs ih =>
      cases runs with
      | nil => simp at hlen
      | cons r runs =>
        rw [List.zipWith_cons_cons, List.filterMap_cons, List.filterMap_cons, ih runs (by simpa using hlen)]
  · rw [List.map_zipWith]
    have : List.zipWith (fun (x : File) (_ : MarkedRun K) => x.1) (files.filter isLog) runs = (files.filter isLog).map Prod.fst := by
      clear * - hlen
      generalize files.filter isLog = fs at hlen
      induction fs generalizing runs with
      | nil => simp
      | cons x fs ih =>
        cases runs with
        | nil => simp at hlen
        | cons r runs => rw [List.zipWith_cons_cons, List.map_cons, ih runs (by simpa using hlen)]
    rw [this]
    exact hname
  · intro y hy
    rw [List.mem_iff_getElem?] at hy ⊢
    obtain ⟨i, hi⟩ := hy
    refine ⟨i, ?_⟩
    rw [List.getElem?_zipWith] at hi ⊢
    cases h1 : (files.filter isLog)[i]? with
    | none => simp [h1] at hi
    | some a =>
      cases h2 : runs[i]? with
      | none => simp [h1, h2] at hi
      | some b =>
        simp only [h1, h2, Option.some.injEq] at hi
        subst hi
        rfl

/-- Two logs, one with a solution, and a file that is not a log: one point. -/
theorem C109_points_nonvacuous : List.Forall₂ (fun (x : File) r => Marked smallParser x.2 r)
      (List.filter isLog [("1.log".toList, ["Delta:".toList, "1.5".toList, "".toList, "Found solution in".toList, "2.5".toList]), ("plan.pddl".toList, []),
        ("2.log".toList, ["Delta:".toList, "1.5".toList])]) [⟨3 / 2, some (5 / 2)⟩, ⟨3 / 2, none⟩] ∧
    boundPlot smallParser [("1.log".toList, ["Delta:".toList, "1.5".toList, "".toList, "Found solution in".toList, "2.5".toList]), ("plan.pddl".toList, []),
        ("2.log".toList, ["Delta:".toList, "1.5".toList])] = .ok [(3 / 2, 5 / 2)] := by
  have num : NumberLine smallParser "1.5".toList (3 / 2) := ⟨by decide, by decide, ⟨by decide, by decide⟩, by decide +kernel⟩
  have num' : NumberLine smallParser "2.5".toList (5 / 2) := ⟨by decide, by decide, ⟨by decide, by decide⟩, by decide +kernel⟩
  refine ⟨List.Forall₂.cons ⟨[], _, _, ["".toList], ?_, ?_, ?_, num, _, _, [], ?_, ?_, ?_, num', rfl⟩
    (List.Forall₂.cons ⟨[], _, _, [], ?_, ?_, ?_, num, rfl⟩ List.Forall₂.nil), by decide +kernel⟩
  all_goals (first | decide | (unfold Other; decide))

end Verif.Props
