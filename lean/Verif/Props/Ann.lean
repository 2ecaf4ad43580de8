import Mathlib.Tactic.Linarith
import Mathlib.Tactic.NormNum
import Mathlib.Tactic.Ring
import Verif.Spec.Ann

/-! Nearest-neighbour back ends: C41, C42. -/

namespace Verif.Props

open Verif.Ann

/-! ### C41: padding -/

theorem embeddedDim_spec (d : ℕ) : d ≤ embeddedDim d ∧ embeddedDim d < d + 4 ∧ embeddedDim d % 4 = 0 := by
  unfold embeddedDim
  have h1 : (d : ℚ) / 4 ≤ ⌈(d : ℚ) / 4⌉₊ := Nat.le_ceil _
  have h2 : (⌈(d : ℚ) / 4⌉₊ : ℚ) < (d : ℚ) / 4 + 1 := Nat.ceil_lt_add_one (by positivity)
  refine ⟨?_, ?_, by omega⟩
  · have : (d : ℚ) ≤ ((⌈(d : ℚ) / 4⌉₊ * 4 : ℕ) : ℚ) := by push_cast; linarith
    exact_mod_cast this
  · have : ((⌈(d : ℚ) / 4⌉₊ * 4 : ℕ) : ℚ) < ((d + 4 : ℕ) : ℚ) := by push_cast; linarith
    exact_mod_cast this

theorem embeddedDim_idem (d : ℕ) : embeddedDim (embeddedDim d) = embeddedDim d := by
  have h := embeddedDim_spec d
  have h' := embeddedDim_spec (embeddedDim d)
  omega

theorem zip_pad_sum (c : ℕ) (a b : List ℝ) (hab : a.length = b.length) :
    (List.zipWith (fun x y => (x - y) ^ 2) (padRow c a) (padRow c b)).sum = (List.zipWith (fun x y => (x - y) ^ 2) a b).sum := by
  unfold padRow
  rw [List.zipWith_append (h := hab), List.sum_append, ← hab, List.zipWith_replicate]
  simp

/-- C41: the padded width is the least multiple of four that is no smaller than the given width; the padded rows are the given rows
followed by zeros; and all distances (and the half squares that kgraph computes) are those of the given rows. -/
theorem C41_padding (data : Arr) (hwf : data.Wf) :
    (embed data).cols % 4 = 0 ∧ data.cols ≤ (embed data).cols ∧ (embed data).cols < data.cols + 4 ∧ (embed data).Wf ∧
      (embed data).rows.length = data.rows.length ∧
      ∀ (i j : ℕ) (a b : List ℝ), data.rows[i]? = some a → data.rows[j]? = some b →
        ∃ a' b', (embed data).rows[i]? = some a' ∧ (embed data).rows[j]? = some b' ∧ a'.take data.cols = a ∧
          (∀ x ∈ a'.drop data.cols, x = 0) ∧ euclid a' b' = euclid a b ∧ halfSq a' b' = halfSq a b := by
  obtain ⟨h1, h2, h3⟩ := embeddedDim_spec data.cols
  refine ⟨h3, h1, h2, ?_, by simp [embed], ?_⟩
  · intro r hr
    obtain ⟨r', hr', rfl⟩ := List.mem_map.1 hr
    have := hwf r' hr'
    simp [padRow, embed, this, h1]
  · intro i j a b ha hb
    have hla : a.length = data.cols := hwf a (List.mem_of_getElem? ha)
    have hlb : b.length = data.cols := hwf b (List.mem_of_getElem? hb)
    refine ⟨padRow (embeddedDim data.cols) a, padRow (embeddedDim data.cols) b, by simp [embed, ha], by simp [embed, hb], ?_, ?_, ?_, ?_⟩
    · rw [padRow, ← hla, List.take_left]
    · rw [padRow, ← hla, List.drop_left]
      intro x hx
      exact List.eq_of_mem_replicate hx
    · unfold euclid
      rw [zip_pad_sum _ _ _ (hla.trans hlb.symm)]
    · unfold halfSq
      rw [zip_pad_sum _ _ _ (hla.trans hlb.symm)]

/-! ### C41: parsing -/

theorem evens_written {Tok : Type} (lib : KGraphLib Tok) {l : List Tok} {ps : List (ℕ × ℝ)} (h : WrittenPairs lib l ps) :
    (evens l).map lib.int = ps.map (fun c => some c.1) ∧ (evens (l.drop 1)).map lib.float = ps.map (fun c => some c.2) := by
  induction h with
  | nil => exact ⟨rfl, rfl⟩
  | @cons a b i d l ps ha hb h ih =>
    refine ⟨?_, ?_⟩
    · rw [evens, List.map_cons, List.map_cons, ih.1, ha]
    · rw [List.drop_one, List.tail_cons]
      cases h with
      | nil => simp [evens, hb]
      | cons ha' hb' h' =>
        have h2 := ih.2
        rw [List.drop_one, List.tail_cons] at h2
        rw [evens, List.map_cons, h2, hb]
        rfl

theorem mapM_of_map {α β : Type} (f : α → Option β) (l : List α) (m : List β) (h : l.map f = m.map some) : l.mapM f = some m := by
  induction l generalizing m with
  | nil => cases m with
    | nil => rfl
    | cons b m => simp at h
  | cons a l ih => cases m with
    | nil => simp at h
    | cons b m =>
      rw [List.map_cons, List.map_cons, List.cons.injEq] at h
      rw [List.mapM_cons, h.1, ih m h.2]
      rfl

theorem toArray_written {Tok α : Type} (parse : Tok → Option α) (k : ℕ) (rows : List (List Tok)) (vals : List (List α))
    (h : List.Forall₂ (fun r v => r.map parse = v.map some ∧ v.length = k) rows vals) : toArray parse rows = .ok vals := by
  have hlen : ∀ r ∈ rows, r.length = k := by
    induction h with
    | nil => intro r hr; simp at hr
    | @cons r v rows vals hrv _ ih =>
      intro r' hr'
      rw [List.mem_cons] at hr'
      rcases hr' with rfl | hr'
      · have := congrArg List.length hrv.1
        rw [List.length_map, List.length_map] at this
        rw [this, hrv.2]
      · exact ih r' hr'
  unfold toArray
  rw [if_pos (fun r hr r' hr' => (hlen r hr).trans (hlen r' hr').symm)]
  have : rows.mapM (fun r => r.mapM parse) = some vals := by
    refine mapM_of_map _ _ _ ?_
    clear * - h
    induction h with
    | nil => rfl
    | cons hrv _ ih => rw [List.map_cons, List.map_cons, ih, mapM_of_map _ _ _ hrv.1]
  rw [this]

/-- Both arrays of a written file. -/
theorem written_arrays {Tok : Type} (lib : KGraphLib Tok) (k : ℕ) (rest : List (List Tok)) (nbrs : List (List (ℕ × ℝ)))
    (h : List.Forall₂ (fun line ps => ∃ count l, line = count :: l ∧ WrittenPairs lib l ps) rest nbrs) (hk : ∀ ps ∈ nbrs, k ≤ ps.length) :
    toArray lib.int (rest.map fun line => (evens (line.drop 1)).take k) = .ok (nbrs.map fun ps => (ps.take k).map (·.1)) ∧
      toArray lib.float (rest.map fun line => (evens (line.drop 2)).take k) = .ok (nbrs.map fun ps => (ps.take k).map (·.2)) := by
  have he : toArray lib.int (rest.map fun line => (evens (line.drop 1)).take k) = .ok (nbrs.map fun ps => (ps.take k).map (·.1)) := by
    refine toArray_written lib.int k _ _ ?_
    clear * - h hk
    induction h with
    | nil => exact List.Forall₂.nil
    | @cons line ps rest nbrs hl _ ih =>
      obtain ⟨count, l, rfl, hl⟩ := hl
      refine List.Forall₂.cons ⟨?_, ?_⟩ (ih fun ps hps => hk ps (List.mem_cons_of_mem _ hps))
      · show List.map lib.int ((evens l).take k) = List.map some ((ps.take k).map (·.1))
        rw [List.map_take, (evens_written lib hl).1, ← List.map_take, List.map_map]
        rfl
      · rw [List.length_map, List.length_take, Nat.min_eq_left (hk ps (by simp))]
  have hd : toArray lib.float (rest.map fun line => (evens (line.drop 2)).take k) = .ok (nbrs.map fun ps => (ps.take k).map (·.2)) := by
    refine toArray_written lib.float k _ _ ?_
    clear * - h hk
    induction h with
    | nil => exact List.Forall₂.nil
    | @cons line ps rest nbrs hl _ ih =>
      obtain ⟨count, l, rfl, hl⟩ := hl
      refine List.Forall₂.cons ⟨?_, ?_⟩ (ih fun ps hps => hk ps (List.mem_cons_of_mem _ hps))
      · show List.map lib.float ((evens (l.drop 1)).take k) = List.map some ((ps.take k).map (·.2))
        rw [List.map_take, (evens_written lib hl).2, ← List.map_take, List.map_map]
        rfl
      · rw [List.length_map, List.length_take, Nat.min_eq_left (hk ps (by simp))]
  exact ⟨he, hd⟩

/-- C41: whatever file kgraph writes, if every point has at least `k` neighbours in it, the parsed table is, for each point, exactly
the first `k` ids and the first `k` distances, undoing the half square. -/
theorem C41_parse {Tok : Type} (lib : KGraphLib Tok) (k : ℕ) (lines : List (List Tok)) (nbrs : List (List (ℕ × ℝ)))
    (h : Written lib lines nbrs) (hk : ∀ ps ∈ nbrs, k ≤ ps.length) :
    parse lib k lines = .ok (nbrs.map fun ps => (ps.take k).map (·.1), nbrs.map fun ps => (ps.take k).map fun c => Real.sqrt (2 * c.2)) := by
  obtain ⟨header, rest, rfl, h⟩ := h
  obtain ⟨he, hd⟩ := written_arrays lib k rest nbrs h hk
  unfold parse
  rw [List.drop_one, List.tail_cons]
  simp only [he, hd]
  simp only [bind, pure, Except.bind, Except.pure, List.map_map, Function.comp_def, mul_comm]

/-- C41, the converse case: if kgraph wrote fewer than `k` neighbours for one point and at least `k` for another, the call raises. -/
theorem C41_ragged {Tok : Type} (lib : KGraphLib Tok) (k : ℕ) (lines : List (List Tok)) (nbrs : List (List (ℕ × ℝ)))
    (h : Written lib lines nbrs) {ps qs : List (ℕ × ℝ)} (hp : ps ∈ nbrs) (hq : qs ∈ nbrs) (hps : ps.length < k) (hqs : k ≤ qs.length) :
    parse lib k lines = .error .value := by
  obtain ⟨header, rest, rfl, h⟩ := h
  have hlen : ∀ ps ∈ nbrs, ∃ r ∈ rest.map (fun line => (evens (line.drop 1)).take k), r.length = min k ps.length := by
    clear * - h
    induction h with
    | nil => intro ps hps; simp at hps
    | @cons line ps rest nbrs hl _ ih =>
      intro ps' hps'
      rw [List.mem_cons] at hps'
      rcases hps' with rfl | hps'
      · obtain ⟨count, l, rfl, hl⟩ := hl
        refine ⟨_, by rw [List.map_cons]; exact List.mem_cons_self .., ?_⟩
        have := congrArg List.length (evens_written lib hl).1
        rw [List.length_map, List.length_map] at this
        rw [List.drop_one, List.tail_cons, List.length_take, this]
      · obtain ⟨r, hr, hlen⟩ := ih ps' hps'
        exact ⟨r, by rw [List.map_cons]; exact List.mem_cons_of_mem _ hr, hlen⟩
  obtain ⟨r, hr, h1⟩ := hlen ps hp
  obtain ⟨r', hr', h2⟩ := hlen qs hq
  unfold parse
  rw [List.drop_one, List.tail_cons]
  have : toArray lib.int (rest.map fun line => (evens (line.drop 1)).take k) = .error .value := by
    unfold toArray
    rw [if_neg]
    intro hall
    have := hall r hr r' hr'
    omega
  simp only [this]
  rfl

theorem sqrt_halfSq (a b : List ℝ) : Real.sqrt (2 * halfSq a b) = euclid a b := by
  unfold halfSq euclid
  rw [mul_div_cancel₀ _ (by norm_num)]

/-! ### C41: updates -/

theorem embed_padded (c : ℕ) (old fresh : List (List ℝ)) (hold : ∀ r ∈ old, r.length = c) (hf : ∀ r ∈ fresh, r.length = c) :
    embed ⟨embeddedDim c, old.map (padRow (embeddedDim c)) ++ fresh.map (padRow (embeddedDim c))⟩ = embed ⟨c, old ++ fresh⟩ := by
  have hid : ∀ r : List ℝ, r.length = c → padRow (embeddedDim c) (padRow (embeddedDim c) r) = padRow (embeddedDim c) r := by
    intro r hr
    have := (embeddedDim_spec c).1
    unfold padRow
    simp only [List.length_append, List.length_replicate, hr]
    rw [Nat.add_sub_cancel' this, Nat.sub_self]
    simp
  unfold embed
  simp only [embeddedDim_idem, List.map_append, List.map_map, Arr.mk.injEq, true_and]
  congr 1
  · apply List.map_congr_left
    intro r hr
    exact hid r (hold r hr)
  · apply List.map_congr_left
    intro r hr
    exact hid r (hf r hr)

/-- C41: after building from `data` and any number of updates with rows of the same width, the next update gives what building from
scratch from all rows, old ones first and in their order, would give; and the object is the same as well. -/
theorem C41_updates {Tok : Type} (lib : KGraphLib Tok) (data : Arr) (hwf : data.Wf) (k : ℕ) (updates : List Arr)
    (hu : ∀ u ∈ updates, u.Wf ∧ u.cols = data.cols) (fresh : Arr) (hf : fresh.Wf ∧ fresh.cols = data.cols) (s : KGraph) :
    (KGraph.after lib (.new data k :: updates.map .update)).update lib fresh =
      s.newGraph lib ⟨data.cols, data.rows ++ (updates.map (·.rows)).flatten ++ fresh.rows⟩ k := by
  have step : ∀ (s s' : KGraph) (rows : List (List ℝ)) (fresh : Arr), (∀ r ∈ rows, r.length = data.cols) → fresh.Wf → fresh.cols = data.cols →
      s = ⟨some k, embed ⟨data.cols, rows⟩⟩ → s.update lib fresh = s'.newGraph lib ⟨data.cols, rows ++ fresh.rows⟩ k := by
    rintro s s' rows fresh hrows hfw hfc rfl
    unfold KGraph.update
    have hle := (embeddedDim_spec data.cols).1
    have h1 : ¬ (embed ⟨data.cols, rows⟩).cols < fresh.cols := by rw [hfc]; exact Nat.not_lt.2 hle
    simp only [if_neg h1]
    unfold KGraph.newGraph
    have := embed_padded data.cols rows fresh.rows hrows (fun r hr => (hfw r hr).trans hfc)
    have he : (⟨(embed ⟨data.cols, rows⟩).cols, (embed ⟨data.cols, rows⟩).rows ++ fresh.rows.map (padRow (embed ⟨data.cols, rows⟩).cols)⟩ : Arr) =
        ⟨embeddedDim data.cols, rows.map (padRow (embeddedDim data.cols)) ++ fresh.rows.map (padRow (embeddedDim data.cols))⟩ := rfl
    rw [he, this]
  have hstate : ∀ (us : List Arr) (rows : List (List ℝ)) (s : KGraph), (∀ u ∈ us, u.Wf ∧ u.cols = data.cols) →
      (∀ r ∈ rows, r.length = data.cols) → s = ⟨some k, embed ⟨data.cols, rows⟩⟩ →
      (us.map Call.update).foldl (fun s c => match c with
        | .new data k => (s.newGraph lib data k).1
        | .update fresh => (s.update lib fresh).1) s = ⟨some k, embed ⟨data.cols, rows ++ (us.map (·.rows)).flatten⟩⟩ := by
    intro us
    induction us with
    | nil => intro rows s _ _ hs; simpa using hs
    | cons u us ih =>
      intro rows s hus hrows hs
      have hu := hus u (by simp)
      rw [List.map_cons, List.foldl_cons, ih (rows ++ u.rows) _ (fun u hu => hus u (List.mem_cons_of_mem _ hu)), List.map_cons,
        List.flatten_cons, List.append_assoc]
      · intro r hr
        rw [List.mem_append] at hr
        rcases hr with hr | hr
        · exact hrows r hr
        · exact (hu.1 r hr).trans hu.2
      · simp only [step s s rows u hrows hu.1 hu.2 hs]
        rfl
  have h0 := hstate updates data.rows ⟨some k, embed data⟩ hu hwf rfl
  have : KGraph.after lib (.new data k :: updates.map .update) =
      ⟨some k, embed ⟨data.cols, data.rows ++ (updates.map (·.rows)).flatten⟩⟩ := h0
  refine step _ s _ fresh ?_ hf.1 hf.2 this
  intro r hr
  rw [List.mem_append] at hr
  rcases hr with hr | hr
  · exact hwf r hr
  · obtain ⟨l, hl, hr⟩ := List.mem_flatten.1 hr
    obtain ⟨u, hu', rfl⟩ := List.mem_map.1 hl
    exact ((hu u hu').1 r hr).trans (hu u hu').2

/-- C41, the whole of it: if kgraph writes for every row at least `k` neighbours with half their squared distance to it (distances of
the padded rows), then the table is true of the given rows: ids as written and their Euclidean distance from the row. -/
theorem C41_true_distances {Tok : Type} (lib : KGraphLib Tok) (s : KGraph) (data : Arr) (hwf : data.Wf) (k : ℕ) (ids : List (List ℕ))
    (hids : ∀ r ∈ ids, k ≤ r.length ∧ ∀ j ∈ r, j < data.rows.length) (hlen : ids.length = data.rows.length)
    (hlib : ∀ d : Arr, d = embed data → Written lib (lib.text d k)
      (ids.zipIdx.map fun c => c.1.map fun j => (j, halfSq (d.rows[c.2]?.getD []) (d.rows[j]?.getD [])))) :
    (s.newGraph lib data k).2 = .ok (ids.map (·.take k),
      ids.zipIdx.map fun c => (c.1.take k).map fun j => euclid (data.rows[c.2]?.getD []) (data.rows[j]?.getD [])) := by
  unfold KGraph.newGraph
  rw [C41_parse lib k _ _ (hlib _ rfl)]
  · simp only [List.map_map, Function.comp_def, ← List.map_take, Except.ok.injEq, Prod.mk.injEq]
    constructor
    · rw [show ids.map (fun x => x.take k) = (ids.zipIdx.map (·.1)).map (fun x => x.take k) by rw [List.zipIdx_map_fst], List.map_map]
      apply List.map_congr_left
      intro c _
      simp
    · apply List.map_congr_left
      intro c hc
      apply List.map_congr_left
      intro j hj
      have hr : c.1 ∈ ids := List.fst_mem_of_mem_zipIdx hc
      have hj' := (hids _ hr).2 j (List.mem_of_mem_take hj)
      have hi : c.2 < data.rows.length := by
        have := List.snd_lt_of_mem_zipIdx hc
        omega
      obtain ⟨a', b', ha, hb, _, _, _, hh⟩ := (C41_padding data hwf).2.2.2.2.2 c.2 j _ _ (List.getElem?_eq_getElem hi)
        (List.getElem?_eq_getElem hj')
      rw [sqrt_halfSq]
      unfold euclid halfSq at *
      rw [ha, hb, List.getElem?_eq_getElem hi, List.getElem?_eq_getElem hj']
      simp only [Option.getD_some]
      rw [show ∀ x y : ℝ, (x / 2 = y / 2) = (x = y) from fun x y => by rw [div_left_inj' two_ne_zero]] at hh
      rw [hh]
  · intro ps hps
    obtain ⟨c, hc, rfl⟩ := List.mem_map.1 hps
    rw [List.length_map]
    exact (hids _ (List.fst_mem_of_mem_zipIdx hc)).1

/-- A hypothetical library whose tokens are numbers and which writes all rows, the row itself first, with half their squares. -/
noncomputable def exampleLib : KGraphLib (ℕ ⊕ ℝ) where
  text d k := [Sum.inl d.rows.length] :: d.rows.zipIdx.map fun c =>
    Sum.inl k :: (c.2 :: List.range d.rows.length).flatMap fun j => [Sum.inl j, Sum.inr (halfSq (d.rows[c.2]?.getD []) (d.rows[j]?.getD []))]
  int
    | .inl n => some n
    | .inr _ => none
  float
    | .inl _ => none
    | .inr x => some x

theorem exampleLib_written (d : Arr) (k : ℕ) : Written exampleLib (exampleLib.text d k)
    (((List.range d.rows.length).map fun i => i :: List.range d.rows.length).zipIdx.map fun c =>
      c.1.map fun j => (j, halfSq (d.rows[c.2]?.getD []) (d.rows[j]?.getD []))) := by
  have hw : ∀ (f : ℕ → ℝ) (l : List ℕ), WrittenPairs exampleLib (l.flatMap fun j => [Sum.inl j, Sum.inr (f j)]) (l.map fun j => (j, f j)) := by
    intro f l
    induction l with
    | nil => exact WrittenPairs.nil
    | cons j l ih => exact WrittenPairs.cons rfl rfl ih
  refine ⟨_, _, rfl, ?_⟩
  rw [List.forall₂_map_left_iff, List.forall₂_map_right_iff]
  rw [List.forall₂_iff_get]
  refine ⟨by simp, ?_⟩
  intro i h1 h2
  refine ⟨_, _, rfl, ?_⟩
  simp only [List.get_eq_getElem, List.getElem_zipIdx, List.getElem_map, List.getElem_range, Nat.zero_add]
  exact hw (fun j => halfSq (d.rows[i]?.getD []) (d.rows[j]?.getD [])) (i :: List.range d.rows.length)

/-- C41 for pynndescent: building gives a table with `k` neighbours for the given rows; after building and any number of updates with rows of the same width, the next update gives one
for all rows, old ones first and in their order. -/
theorem C41_pynndescent {Index : Type} (lib : PynnLib Index) (holds : Index → Arr → ℕ → Prop) (hlib : PynnKeeps lib holds) (s : Option Index) (data : Arr) (k : ℕ)
    (updates : List Arr) (hu : ∀ u ∈ updates, u.cols = data.cols) (fresh : Arr) (hf : fresh.cols = data.cols) :
    (∃ t, (Pynn.newGraph lib s data k).2 = .ok t ∧ KTable k data t) ∧
      ∃ t, (Pynn.update lib (Pynn.after lib (.new data k :: updates.map .update)) fresh).2 = .ok t ∧
        KTable k ⟨data.cols, data.rows ++ (updates.map (·.rows)).flatten ++ fresh.rows⟩ t := by
  refine ⟨⟨_, rfl, hlib.graph _ _ _ (hlib.build _ _)⟩, ?_⟩
  have key : ∀ (us : List Arr) (i : Index) (d : Arr), (∀ u ∈ us, u.cols = d.cols) → holds i d k →
      ∃ j, (us.map Call.update).foldl (fun s c => match c with
        | .new data k => (Pynn.newGraph lib s data k).1
        | .update fresh => (Pynn.update lib s fresh).1) (some i) = some j ∧ holds j ⟨d.cols, d.rows ++ (us.map (·.rows)).flatten⟩ k := by
    intro us
    induction us with
    | nil => intro i d _ h; exact ⟨i, rfl, by simpa using h⟩
    | cons u us ih =>
      intro i d hus h
      obtain ⟨j, e, hj⟩ := ih (lib.update i u) ⟨d.cols, d.rows ++ u.rows⟩ (fun v hv => hus v (List.mem_cons_of_mem _ hv)) (hlib.update i d k u h (hus u List.mem_cons_self))
      refine ⟨j, e, ?_⟩
      simpa [List.append_assoc] using hj
  obtain ⟨j, e, hj⟩ := key updates (lib.build data k) data hu (hlib.build _ _)
  have e' : Pynn.after lib (.new data k :: updates.map .update) = some j := e
  rw [e']
  exact ⟨_, rfl, hlib.graph _ _ _ (hlib.update j _ k fresh hj hf)⟩

/-- A library as `C41_pynndescent` expects it: every row is its own neighbour. -/
theorem C41_pynndescent_nonvacuous : ∃ (lib : PynnLib (Arr × ℕ)) (holds : Arr × ℕ → Arr → ℕ → Prop), PynnKeeps lib holds ∧
    (Pynn.update lib (Pynn.after lib [.new ⟨1, [[0], [3]]⟩ 2]) ⟨1, [[7]]⟩).2 = .ok ([[0, 0], [1, 1], [2, 2]], [[0, 0], [0, 0], [0, 0]]) := by
  refine ⟨{ build := fun d k => (d, k), update := fun i f => (⟨i.1.cols, i.1.rows ++ f.rows⟩, i.2),
            graph := fun i => ((List.range i.1.rows.length).map fun j => List.replicate i.2 j, (List.range i.1.rows.length).map fun _ => List.replicate i.2 0) },
    fun i d k => i = (d, k), ⟨fun _ _ => rfl, ?_, ?_⟩, rfl⟩
  · rintro i data k fresh rfl _
    rfl
  · rintro i data k rfl
    refine ⟨by simp, by simp, fun i ids ds h1 h2 => ?_⟩
    simp only [List.getElem?_map, Option.map_eq_some_iff] at h1 h2
    obtain ⟨j, hj, rfl⟩ := h1
    obtain ⟨j', hj', rfl⟩ := h2
    rw [List.getElem?_eq_some_iff] at hj
    obtain ⟨hlt, hj⟩ := hj
    rw [List.length_range] at hlt
    rw [List.getElem_range] at hj
    subst hj
    refine ⟨List.length_replicate, fun j hj => ?_, ?_⟩
    · rw [List.eq_of_mem_replicate hj]; exact hlt
    · rw [List.map_replicate]
      congr 1
      have : ∀ l : List ℝ, (List.zipWith (fun x y => (x - y) ^ 2) l l).sum = 0 := by
        intro l
        induction l with
        | nil => rfl
        | cons a l ih => simp [ih]
      simp [euclid, this]

/-- Two points at distance five in the plane; the library writes what `C41_true_distances` asks for. -/
theorem C41_nonvacuous :
    ((KGraph.init.newGraph exampleLib ⟨2, [[0, 0], [3, 4]]⟩ 3).2) = .ok ([[0, 0, 1], [1, 0, 1]], [[0, 0, 5], [0, 5, 0]]) := by
  have h := C41_true_distances exampleLib KGraph.init ⟨2, [[0, 0], [3, 4]]⟩ (by intro r hr; simp at hr; rcases hr with rfl | rfl <;> rfl) 3
    [[0, 0, 1], [1, 0, 1]] (by intro r hr; simp at hr; rcases hr with rfl | rfl <;> simp) rfl
    (by
      intro d hd
      have := exampleLib_written d 3
      have hl : d.rows.length = 2 := by rw [hd]; rfl
      rw [hl] at this
      exact this)
  rw [h]
  have h5 : Real.sqrt (3 ^ 2 + 4 ^ 2) = 5 := by
    rw [show (3 : ℝ) ^ 2 + 4 ^ 2 = 5 ^ 2 by norm_num]; exact Real.sqrt_sq (by norm_num)
  simp [euclid, h5]

/-! ### C42 -/

/-- C42: which back end one gets. -/
theorem C42_selection (available : Bool) (name : String) :
    (name = "pynndescent" → getAnn available name = .ok .pynndescent) ∧
    (name = "kgraph" → available = true → getAnn available name = .ok .kgraph) ∧
    (name = "kgraph" → available = false → getAnn available name = .ok .pynndescent) ∧
    (name ≠ "pynndescent" → name ≠ "kgraph" → getAnn available name = .error .notImplemented) := by
  refine ⟨?_, ?_, ?_, ?_⟩
  · rintro rfl; rfl
  · rintro rfl rfl; rfl
  · rintro rfl rfl; rfl
  · intro h1 h2
    unfold getAnn
    rw [if_neg h1, if_neg h2]

theorem toArray_error {Tok α : Type} (f : Tok → Option α) (rows : List (List Tok)) {e : PyErr} (h : toArray f rows = .error e) : e = .value := by
  unfold toArray at h
  split at h
  · split at h
    · cases h
    · cases h; rfl
  · cases h; rfl

theorem parse_error {Tok : Type} (lib : KGraphLib Tok) (k : ℕ) (lines : List (List Tok)) {e : PyErr} (h : parse lib k lines = .error e) :
    e = .value := by
  unfold parse at h
  simp only at h
  cases h1 : toArray lib.int ((lines.drop 1).map fun line => (evens (line.drop 1)).take k) with
  | error e' =>
    rw [h1] at h
    cases h
    exact toArray_error _ _ h1
  | ok t =>
    rw [h1] at h
    cases h2 : toArray lib.float ((lines.drop 1).map fun line => (evens (line.drop 2)).take k) with
    | error e' =>
      rw [h2] at h
      cases h
      exact toArray_error _ _ h2
    | ok t' =>
      rw [h2] at h
      cases h

/-- C42: after any calls, updating raises RuntimeError exactly when no call has built a graph yet; then it changes nothing. -/
theorem C42_update_before_build_kgraph {Tok : Type} (lib : KGraphLib Tok) (calls : List Call) (fresh : Arr) :
    (∀ data k, Call.new data k ∉ calls) ↔
      (KGraph.after lib calls).update lib fresh = (KGraph.after lib calls, .error .runtime) := by
  have hk : ∀ (calls : List Call) (s : KGraph), (calls.foldl (fun s c => match c with
      | .new data k => (s.newGraph lib data k).1
      | .update fresh => (s.update lib fresh).1) s).k = none ↔ s.k = none ∧ ∀ data k, Call.new data k ∉ calls := by
    intro calls
    induction calls with
    | nil => intro s; simp
    | cons c calls ih =>
      intro s
      rw [List.foldl_cons, ih]
      cases c with
      | new data k =>
        constructor
        · rintro ⟨h, _⟩; cases h
        · rintro ⟨_, h⟩; exact absurd (List.mem_cons_self ..) (h data k)
      | update f =>
        have : (s.update lib f).1.k = none ↔ s.k = none := by
          unfold KGraph.update
          cases hs : s.k with
          | none => simp [hs]
          | some k =>
            simp only
            split <;> simp [hs, KGraph.newGraph]
        simp only [this, List.mem_cons, not_or]
        constructor
        · rintro ⟨h1, h2⟩; exact ⟨h1, fun d k => ⟨by simp, h2 d k⟩⟩
        · rintro ⟨h1, h2⟩; exact ⟨h1, fun d k => (h2 d k).2⟩
  have h0 := hk calls KGraph.init
  have h1 : (KGraph.after lib calls).k = none ↔ ∀ data k, Call.new data k ∉ calls := by
    refine Iff.trans h0 ?_
    simp [KGraph.init]
  rw [← h1]
  constructor
  · intro h
    unfold KGraph.update
    rw [h]
  · intro h
    cases hs : (KGraph.after lib calls).k with
    | none => rfl
    | some k =>
      unfold KGraph.update at h
      rw [hs] at h
      simp only at h
      split at h
      · cases (Prod.mk.inj h).2
      · have h2 := (Prod.mk.inj h).2
        cases parse_error lib k _ h2

/-- C42 for pynndescent. -/
theorem C42_update_before_build_pynndescent {Index : Type} (lib : PynnLib Index) (calls : List Call) (fresh : Arr) :
    (∀ data k, Call.new data k ∉ calls) ↔
      Pynn.update lib (Pynn.after lib calls) fresh = (Pynn.after lib calls, .error .runtime) := by
  have hk : ∀ (calls : List Call) (s : Option Index), calls.foldl (fun s c => match c with
      | .new data k => (Pynn.newGraph lib s data k).1
      | .update fresh => (Pynn.update lib s fresh).1) s = none ↔ s = none ∧ ∀ data k, Call.new data k ∉ calls := by
    intro calls
    induction calls with
    | nil => intro s; simp
    | cons c calls ih =>
      intro s
      rw [List.foldl_cons, ih]
      cases c with
      | new data k =>
        constructor
        · rintro ⟨h, _⟩; cases h
        · rintro ⟨_, h⟩; exact absurd (List.mem_cons_self ..) (h data k)
      | update f =>
        have : (Pynn.update lib s f).1 = none ↔ s = none := by
          cases s <;> simp [Pynn.update]
        simp only [this, List.mem_cons, not_or]
        constructor
        · rintro ⟨h1, h2⟩; exact ⟨h1, fun d k => ⟨by simp, h2 d k⟩⟩
        · rintro ⟨h1, h2⟩; exact ⟨h1, fun d k => (h2 d k).2⟩
  have h1 : Pynn.after lib calls = none ↔ ∀ data k, Call.new data k ∉ calls := by
    refine Iff.trans (hk calls none) ?_
    simp
  rw [← h1]
  cases Pynn.after lib calls <;> simp [Pynn.update]

/-- Updating twice and then building: the first update raises, after the build the next one does not. -/
theorem C42_nonvacuous {Tok : Type} (lib : KGraphLib Tok) (a : Arr) :
    ((KGraph.after lib [.update a, .update a]).update lib a).2 = .error .runtime ∧
      ((KGraph.after lib [.update a, .new a 3]).update lib a) ≠ (KGraph.after lib [.update a, .new a 3], .error .runtime) := by
  refine ⟨rfl, ?_⟩
  rw [Ne, ← C42_update_before_build_kgraph]
  intro h
  exact h a 3 (by simp)

end Verif.Props
