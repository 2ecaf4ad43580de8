import Verif.Lemmas.FloatAnn
import Verif.Model.FloatAnn
import Verif.Props.Ann

/-! The kgraph back end in single precision: C140. -/

namespace Verif.Props

open Verif Verif.Ann

theorem single_pad (c : ℕ) (r : List ℝ) : (padRow c r).map Float32.fl = padRow c (r.map Float32.fl) := by
  unfold padRow
  rw [List.map_append, List.map_replicate, Float32.fl_zero, List.length_map]

theorem embed_single (c : ℕ) (old fresh : List (List ℝ)) (hold : ∀ r ∈ old, r.length = c) (hf : ∀ r ∈ fresh, r.length = c) :
    embed (Arr.single ⟨(embed (Arr.single ⟨c, old⟩)).cols, (embed (Arr.single ⟨c, old⟩)).rows ++ fresh.map (padRow (embed (Arr.single ⟨c, old⟩)).cols)⟩) =
      embed (Arr.single ⟨c, old ++ fresh⟩) := by
  have h := embed_padded c (old.map (·.map Float32.fl)) (fresh.map (·.map Float32.fl))
    (by intro r hr; obtain ⟨r', hr', rfl⟩ := List.mem_map.1 hr; simpa using hold r' hr')
    (by intro r hr; obtain ⟨r', hr', rfl⟩ := List.mem_map.1 hr; simpa using hf r' hr')
  have e : Arr.single ⟨(embed (Arr.single ⟨c, old⟩)).cols, (embed (Arr.single ⟨c, old⟩)).rows ++ fresh.map (padRow (embed (Arr.single ⟨c, old⟩)).cols)⟩ =
      ⟨embeddedDim c, (old.map (·.map Float32.fl)).map (padRow (embeddedDim c)) ++ (fresh.map (·.map Float32.fl)).map (padRow (embeddedDim c))⟩ := by
    simp only [Arr.single, embed, List.map_append, List.map_map, Function.comp_def, single_pad, Float32.fl_fl]
  rw [e, h]
  simp only [Arr.single, List.map_append]

/-- C140: after building from `data` and any number of updates with rows of the same width, the next update gives what building from scratch from all rows, as they
were given, would give, and the object is the same as well: old rows are rounded again with every update, which does not change them. -/
theorem C140_updates {Tok : Type} (lib : KGraphLib Tok) (data : Arr) (hwf : data.Wf) (k : ℕ) (updates : List Arr)
    (hu : ∀ u ∈ updates, u.Wf ∧ u.cols = data.cols) (fresh : Arr) (hf : fresh.Wf ∧ fresh.cols = data.cols) (s : KGraph) :
    (KGraph.after32 lib (.new data k :: updates.map .update)).update32 lib fresh =
      s.newGraph32 lib ⟨data.cols, data.rows ++ (updates.map (·.rows)).flatten ++ fresh.rows⟩ k := by
  have step : ∀ (s s' : KGraph) (rows : List (List ℝ)) (fresh : Arr), (∀ r ∈ rows, r.length = data.cols) → fresh.Wf → fresh.cols = data.cols →
      s = ⟨some k, embed (Arr.single ⟨data.cols, rows⟩)⟩ → s.update32 lib fresh = s'.newGraph32 lib ⟨data.cols, rows ++ fresh.rows⟩ k := by
    rintro s s' rows fresh hrows hfw hfc rfl
    unfold KGraph.update32
    have hle := (embeddedDim_spec data.cols).1
    have h1 : ¬ (embed (Arr.single ⟨data.cols, rows⟩)).cols < fresh.cols := by rw [hfc]; exact Nat.not_lt.2 hle
    simp only [if_neg h1]
    unfold KGraph.newGraph32
    rw [embed_single data.cols rows fresh.rows hrows (fun r hr => (hfw r hr).trans hfc)]
  have hstate : ∀ (us : List Arr) (rows : List (List ℝ)) (s : KGraph), (∀ u ∈ us, u.Wf ∧ u.cols = data.cols) →
      (∀ r ∈ rows, r.length = data.cols) → s = ⟨some k, embed (Arr.single ⟨data.cols, rows⟩)⟩ →
      (us.map Call.update).foldl (fun s c => match c with
        | .new data k => (s.newGraph32 lib data k).1
        | .update fresh => (s.update32 lib fresh).1) s = ⟨some k, embed (Arr.single ⟨data.cols, rows ++ (us.map (·.rows)).flatten⟩)⟩ := by
    intro us
    induction us with
    | nil => intro rows s _ _ hs; simpa using hs
    | cons u us ih =>
      intro rows s hus hrows hs
      have hu := hus u (by simp)
      rw [List.map_cons, List.foldl_cons, ih (rows ++ u.rows) _ (fun u hu => hus u (List.mem_cons_of_mem _ hu)), List.map_cons,
        List.flatten_cons, List.append_assoc]
      · intro r hr
        rw [List.mem_append] at hr
        rcases hr with hr | hr
        · exact hrows r hr
        · exact (hu.1 r hr).trans hu.2
      · simp only [step s s rows u hrows hu.1 hu.2 hs]
        rfl
  have h0 := hstate updates data.rows ⟨some k, embed data.single⟩ hu hwf rfl
  have : KGraph.after32 lib (.new data k :: updates.map .update) =
      ⟨some k, embed (Arr.single ⟨data.cols, data.rows ++ (updates.map (·.rows)).flatten⟩)⟩ := h0
  refine step _ s _ fresh ?_ hf.1 hf.2 this
  intro r hr
  rw [List.mem_append] at hr
  rcases hr with hr | hr
  · exact hwf r hr
  · obtain ⟨l, hl, hr⟩ := List.mem_flatten.1 hr
    obtain ⟨u, hu', rfl⟩ := List.mem_map.1 hl
    exact ((hu u hu').1 r hr).trans (hu u hu').2

theorem parse32_written {Tok : Type} (lib : KGraphLib Tok) (k : ℕ) (lines : List (List Tok)) (nbrs : List (List (ℕ × ℝ)))
    (h : Written lib lines nbrs) (hk : ∀ ps ∈ nbrs, k ≤ ps.length) :
    parse32 lib k lines = .ok (nbrs.map fun ps => (ps.take k).map (·.1),
      nbrs.map fun ps => (ps.take k).map fun c => Float32.fl (√(Float32.fl (Float32.fl c.2 * 2)))) := by
  obtain ⟨header, rest, rfl, h⟩ := h
  obtain ⟨he, hd⟩ := written_arrays lib k rest nbrs h hk
  unfold parse32
  rw [List.drop_one, List.tail_cons]
  simp only [he, hd]
  simp only [bind, pure, Except.bind, Except.pure, List.map_map, Function.comp_def]

theorem single_wf {data : Arr} (h : data.Wf) : data.single.Wf := by
  intro r hr
  obtain ⟨r', hr', rfl⟩ := List.mem_map.1 hr
  rw [List.length_map]
  exact h r' hr'

/-- C140: if kgraph writes, for arrays whose width is a multiple of four, at least `k` neighbours for every row with their half squares up to the relative error `η`,
then building gives a table with `k` neighbours for every row whose distances are those of the given rows, up to a relative error a little above that of kgraph and an
absolute error of about the rounding of the coordinates, which are at most `R`. -/
theorem C140_distances {Tok : Type} (lib : KGraphLib Tok) (s : KGraph) (data : Arr) (hwf : data.Wf) (hcols : 1 ≤ data.cols) (k : ℕ) {R η : ℝ} (hR : 1 ≤ R)
    (hbox : ∀ r ∈ data.rows, ∀ x ∈ r, |x| ≤ R) (hη : 0 ≤ η) (hη1 : η ≤ 1 / 4)
    (hlib : ∀ d : Arr, d.Wf → d.cols % 4 = 0 → d.rows.length = data.rows.length → KGraphWrites lib η d k) :
    ∃ t, (s.newGraph32 lib data k).2 = .ok t ∧
      KTableNear k data (fun d => (2 * η + 2 ^ (-22 : ℤ)) * d + 2 ^ (-21 : ℤ) * √(data.cols : ℝ) * R) t := by
  obtain ⟨p1, _, _, p4, p5, p6⟩ := C41_padding data.single (single_wf hwf)
  have hlen : (embed data.single).rows.length = data.rows.length := by rw [p5]; simp [Arr.single]
  obtain ⟨nbrs, hw, hl, hn⟩ := hlib (embed data.single) p4 p1 hlen
  rw [hlen] at hl hn
  have hk : ∀ ps ∈ nbrs, k ≤ ps.length := by
    intro ps hps
    obtain ⟨i, hi⟩ := List.mem_iff_getElem?.1 hps
    exact (hn i ps hi).1
  refine ⟨_, parse32_written lib k _ nbrs hw hk, by simpa using hl, by simpa using hl, ?_⟩
  intro i ids ds h1 h2
  simp only [List.getElem?_map, Option.map_eq_some_iff] at h1 h2
  obtain ⟨ps, hps, rfl⟩ := h1
  obtain ⟨ps', hps', rfl⟩ := h2
  rw [hps] at hps'
  cases hps'
  obtain ⟨hkp, hc⟩ := hn i ps hps
  refine ⟨by simp [hkp], by simp [hkp], ?_, ?_⟩
  · intro j hj
    obtain ⟨c, hc', rfl⟩ := List.mem_map.1 hj
    exact (hc c (List.mem_of_mem_take hc')).1
  · intro m j d hj hd
    simp only [List.getElem?_map, Option.map_eq_some_iff] at hj hd
    obtain ⟨c, hcm, rfl⟩ := hj
    obtain ⟨c', hcm', rfl⟩ := hd
    rw [hcm] at hcm'
    cases hcm'
    obtain ⟨hcj, hch⟩ := hc c (List.mem_of_mem_take (List.mem_of_getElem? hcm))
    have hi : i < data.rows.length := by
      have := (List.getElem?_eq_some_iff.1 hps).1
      omega
    have hg : ∀ (n : ℕ) (hn : n < data.rows.length), data.single.rows[n]? = some ((data.rows[n]).map Float32.fl) := by
      intro n hn
      simp [Arr.single, hn]
    obtain ⟨a', b', ha, hb, _, _, _, hh⟩ := p6 i c.1 _ _ (hg i hi) (hg c.1 hcj)
    rw [ha, hb] at hch
    simp only [Option.getD_some] at hch
    rw [hh] at hch
    rw [List.getElem?_eq_getElem hi, List.getElem?_eq_getElem hcj]
    simp only [Option.getD_some]
    have hla := hwf _ (List.getElem_mem hi)
    have hlb := hwf _ (List.getElem_mem hcj)
    have := single_euclid hR hη hη1 (data.rows[i]) (data.rows[c.1]) (hla.trans hlb.symm) (by omega) (hbox _ (List.getElem_mem hi)) (hbox _ (List.getElem_mem hcj)) hch
    rw [hla] at this
    exact this

/-- C140: the same for the table that an update gives, after building and any number of updates: it is about all rows, old ones first and in their order, and the errors
do not grow with the number of updates. -/
theorem C140_update_distances {Tok : Type} (lib : KGraphLib Tok) (data : Arr) (hwf : data.Wf) (hcols : 1 ≤ data.cols) (k : ℕ) (updates : List Arr)
    (hu : ∀ u ∈ updates, u.Wf ∧ u.cols = data.cols) (fresh : Arr) (hf : fresh.Wf ∧ fresh.cols = data.cols) {R η : ℝ} (hR : 1 ≤ R)
    (hbox : ∀ u ∈ data :: fresh :: updates, ∀ r ∈ u.rows, ∀ x ∈ r, |x| ≤ R) (hη : 0 ≤ η) (hη1 : η ≤ 1 / 4)
    (hlib : ∀ d : Arr, d.Wf → d.cols % 4 = 0 → KGraphWrites lib η d k) :
    ∃ t, ((KGraph.after32 lib (.new data k :: updates.map .update)).update32 lib fresh).2 = .ok t ∧
      KTableNear k ⟨data.cols, data.rows ++ (updates.map (·.rows)).flatten ++ fresh.rows⟩
        (fun d => (2 * η + 2 ^ (-22 : ℤ)) * d + 2 ^ (-21 : ℤ) * √(data.cols : ℝ) * R) t := by
  rw [C140_updates lib data hwf k updates hu fresh hf KGraph.init]
  have hmem : ∀ r ∈ data.rows ++ (updates.map (·.rows)).flatten ++ fresh.rows, ∃ u ∈ data :: fresh :: updates, r ∈ u.rows := by
    intro r hr
    rw [List.mem_append, List.mem_append] at hr
    rcases hr with (hr | hr) | hr
    · exact ⟨data, by simp, hr⟩
    · obtain ⟨l, hl, hr⟩ := List.mem_flatten.1 hr
      obtain ⟨u, hu', rfl⟩ := List.mem_map.1 hl
      exact ⟨u, by simp [hu'], hr⟩
    · exact ⟨fresh, by simp, hr⟩
  refine C140_distances lib KGraph.init ⟨data.cols, data.rows ++ (updates.map (·.rows)).flatten ++ fresh.rows⟩ ?_ hcols k hR ?_ hη hη1 (fun d h1 h2 _ => hlib d h1 h2)
  · intro r hr
    obtain ⟨u, hu', hru⟩ := hmem r hr
    clear hr
    rw [List.mem_cons, List.mem_cons] at hu'
    rcases hu' with rfl | rfl | hu'
    · exact hwf r hru
    · exact (hf.1 r hru).trans hf.2
    · exact ((hu u hu').1 r hru).trans (hu u hu').2
  · intro r hr
    obtain ⟨u, hu', hr⟩ := hmem r hr
    exact hbox u hu' r hr

theorem third_not_float : ¬ Float32.IsFloat (1 / 3) := by
  rintro ⟨m, e, -, he, h⟩
  have h2 : (2 : ℝ) ^ (149 : ℕ) = 3 * (m * 2 ^ (e + 149).toNat : ℤ) := by
    push_cast
    rw [← zpow_natCast (2 : ℝ) (e + 149).toNat, Int.toNat_of_nonneg (by omega), zpow_add₀ (by norm_num), ← zpow_natCast]
    push_cast
    have : (3 : ℝ) * (m * (2 ^ e * 2 ^ (149 : ℤ))) = 3 * (m * 2 ^ e) * 2 ^ (149 : ℤ) := by ring
    rw [this, ← h]
    norm_num
  have h3 : (2 : ℤ) ^ 149 = 3 * (m * 2 ^ (e + 149).toNat) := by exact_mod_cast h2
  have h4 : (2 : ℤ) ^ 149 % 3 = 0 := by rw [h3]; exact Int.mul_emod_right 3 _
  norm_num at h4

/-- All returned distances are numbers of single precision. -/
theorem parse32_single {Tok : Type} (lib : KGraphLib Tok) (k : ℕ) (lines : List (List Tok)) {t : List (List ℕ) × List (List ℝ)} (h : parse32 lib k lines = .ok t) :
    ∀ ds ∈ t.2, ∀ d ∈ ds, Float32.IsFloat d := by
  unfold parse32 at h
  simp only at h
  cases h1 : toArray lib.int ((lines.drop 1).map fun line => (evens (line.drop 1)).take k) with
  | error e => rw [h1] at h; cases h
  | ok e =>
    rw [h1] at h
    cases h2 : toArray lib.float ((lines.drop 1).map fun line => (evens (line.drop 2)).take k) with
    | error e => rw [h2] at h; cases h
    | ok d =>
      rw [h2] at h
      cases h
      intro ds hds x hx
      obtain ⟨r, _, rfl⟩ := List.mem_map.1 hds
      obtain ⟨y, _, rfl⟩ := List.mem_map.1 hx
      exact Float32.isFloat_fl _

/-- C140: the distances are not exact, whatever the library does: no table in which the second row is a neighbour of the first has the distances of the rows 0 and 1/3. -/
theorem C140_exact_false : ∃ data : Arr, data.Wf ∧ ∀ (Tok : Type) (lib : KGraphLib Tok) (s : KGraph) (k : ℕ) (t : List (List ℕ) × List (List ℝ)) (ids : List ℕ),
    (s.newGraph32 lib data k).2 = .ok t → t.1[0]? = some ids → 1 ∈ ids → ¬ KTable k data t := by
  refine ⟨⟨1, [[0], [1 / 3]]⟩, by intro r hr; simp at hr; rcases hr with rfl | rfl <;> rfl, ?_⟩
  rintro Tok lib s k t ids ht hids h1 ⟨hl1, hl2, hall⟩
  have hlt : 0 < t.2.length := by rw [hl2]; simp
  obtain ⟨_, _, hds⟩ := hall 0 ids _ hids (List.getElem?_eq_getElem hlt)
  refine third_not_float ?_
  refine parse32_single lib k _ ht _ (List.getElem_mem hlt) _ ?_
  rw [hds]
  refine List.mem_map.2 ⟨1, h1, ?_⟩
  simp [euclid]

theorem exampleLib_writes (d : Arr) : KGraphWrites exampleLib 0 d 1 := by
  refine ⟨_, exampleLib_written d 1, by simp, ?_⟩
  intro i ps hps
  simp only [List.getElem?_map, Option.map_eq_some_iff] at hps
  obtain ⟨c, hc, rfl⟩ := hps
  rw [List.getElem?_zipIdx] at hc
  simp only [List.getElem?_map, Option.map_eq_some_iff] at hc
  obtain ⟨l, ⟨i', hi', rfl⟩, rfl⟩ := hc
  rw [List.getElem?_eq_some_iff] at hi'
  obtain ⟨hlt, hi'⟩ := hi'
  rw [List.length_range] at hlt
  rw [List.getElem_range] at hi'
  subst hi'
  refine ⟨by simp, ?_⟩
  intro c hc
  obtain ⟨j, hj, rfl⟩ := List.mem_map.1 hc
  refine ⟨?_, by simp⟩
  rw [List.mem_cons, List.mem_range] at hj
  rcases hj with rfl | hj
  · exact hlt
  · exact hj

/-- A library as the theorems expect it, and rows in the plane; the table after an update. -/
theorem C140_nonvacuous : (∀ d : Arr, KGraphWrites exampleLib 0 d 1) ∧
    ∃ t, ((KGraph.after32 exampleLib [.new ⟨2, [[0, 0], [3, 4]]⟩ 1]).update32 exampleLib ⟨2, [[1 / 3, 7]]⟩).2 = .ok t ∧
      KTableNear 1 ⟨2, [[0, 0], [3, 4], [1 / 3, 7]]⟩ (fun d => (2 * 0 + 2 ^ (-22 : ℤ)) * d + 2 ^ (-21 : ℤ) * √((2 : ℕ) : ℝ) * 7) t := by
  refine ⟨exampleLib_writes, ?_⟩
  refine C140_update_distances exampleLib ⟨2, [[0, 0], [3, 4]]⟩ ?_ (by norm_num) 1 [] (by simp) ⟨2, [[1 / 3, 7]]⟩ ⟨?_, rfl⟩ (by norm_num) ?_ le_rfl (by norm_num)
    (fun d _ _ => exampleLib_writes d)
  · intro r hr; simp at hr; rcases hr with rfl | rfl <;> rfl
  · intro r hr; simp at hr; subst hr; rfl
  · intro u hu r hr x hx
    simp at hu
    rcases hu with rfl | rfl
    · simp at hr
      rcases hr with rfl | rfl
      · simp at hx; subst hx; norm_num
      · simp at hx; rcases hx with rfl | rfl <;> norm_num
    · simp at hr
      subst hr
      simp at hx
      rcases hx with rfl | rfl
      · rw [abs_of_pos (by norm_num)]; norm_num
      · norm_num

end Verif.Props
