import Verif.Spec.Ann

/-! What is expected of kgraph, and of the tables that the back end makes of it, when distances are not exact. -/

namespace Verif.Ann

/-- For the array `d`, kgraph writes at least `k` neighbours of every row, and for each half its squared distance up to the relative error `η`. -/
def KGraphWrites {Tok : Type} (lib : KGraphLib Tok) (η : ℝ) (d : Arr) (k : ℕ) : Prop :=
  ∃ nbrs, Written lib (lib.text d k) nbrs ∧ nbrs.length = d.rows.length ∧
    ∀ (i : ℕ) (ps : List (ℕ × ℝ)), nbrs[i]? = some ps → k ≤ ps.length ∧
      ∀ c ∈ ps, c.1 < d.rows.length ∧
        |c.2 - halfSq (d.rows[i]?.getD []) (d.rows[c.1]?.getD [])| ≤ η * halfSq (d.rows[i]?.getD []) (d.rows[c.1]?.getD [])

/-- A table with `k` neighbours for every row, and distances that are off by at most `err d` where the Euclidean distance is `d`. -/
def KTableNear (k : ℕ) (data : Arr) (err : ℝ → ℝ) (t : List (List ℕ) × List (List ℝ)) : Prop :=
  t.1.length = data.rows.length ∧ t.2.length = data.rows.length ∧
    ∀ (i : ℕ) (ids : List ℕ) (ds : List ℝ), t.1[i]? = some ids → t.2[i]? = some ds →
      ids.length = k ∧ ds.length = k ∧ (∀ j ∈ ids, j < data.rows.length) ∧
        ∀ (m j : ℕ) (d : ℝ), ids[m]? = some j → ds[m]? = some d →
          |d - euclid (data.rows[i]?.getD []) (data.rows[j]?.getD [])| ≤ err (euclid (data.rows[i]?.getD []) (data.rows[j]?.getD []))

end Verif.Ann
