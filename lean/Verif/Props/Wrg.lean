import Verif.Model.Wrg
import Verif.Props.FieldData
import Mathlib.Analysis.SpecialFunctions.Pow.Deriv
import Mathlib.Analysis.SpecialFunctions.ExpDeriv
import Mathlib.Analysis.SpecialFunctions.Pow.Continuity
import Mathlib.MeasureTheory.Integral.IntervalIntegral.FundThmCalculus
import Mathlib.Topology.UniformSpace.HeineCantor
import Mathlib.Order.Lattice.Nat
/-
C63: ambient states from wind resource grids.
-/
namespace Foxes.Props.Wrg
open Foxes.Wrg Foxes.Props.FieldData
open Foxes.FieldData (along inside)

noncomputable section
open scoped Classical

/-! ## Specification -/

/-- the Weibull distribution with scale `A` and shape `k`: probability of wind speeds below `v` -/
def weibull (A k v : ℝ) : ℝ := 1 - Real.exp (-(v / A) ^ k)

/-- the rows of the file are the grid points, row by row from the lower left, x fastest -/
def Ordered (F : File) : Prop :=
  F.rows.length = F.nx * F.ny ∧ ∀ i < F.nx, ∀ j < F.ny, ∀ r, F.rows[j * F.nx + i]? = some r → r.x = F.x0 + i * F.res ∧ r.y = F.y0 + j * F.res

/-- `n` equal wind speed bins from 0 to `W` -/
def equalBins (W : ℝ) (n : ℕ) : List ℝ := List.map (fun i : ℕ => W / n * i) (List.range (n + 1))

/-! ## Grids -/

lemma coords_sorted (p0 : ℝ) (res : ℕ) (hr : 0 < res) (sel : List ℕ) (h : sel.Pairwise (· < ·)) : (coords p0 res sel).Pairwise (· < ·) := by
  unfold coords
  rw [List.pairwise_map]
  refine h.imp fun {a b} hab => ?_
  have h1 : (a : ℝ) < b := by exact_mod_cast hab
  have h2 : (0 : ℝ) < res := by exact_mod_cast hr
  nlinarith

lemma wds_sorted (ns : ℕ) : (wds ns).Pairwise (· < ·) := by
  unfold wds
  rw [List.pairwise_map]
  refine List.pairwise_iff_getElem.2 fun i j hi hj hij => ?_
  simp only [List.length_range] at hi hj
  simp only [List.getElem_range]
  have h1 : (i : ℝ) < j := by exact_mod_cast hij
  have h2 : (0 : ℝ) < ns := by exact_mod_cast (by omega : 0 < ns)
  exact mul_lt_mul_of_pos_left h1 (by positivity)

lemma wds_get (ns s : ℕ) (hs : s < ns) : (wds ns).getD s 0 = 360 / (ns : ℝ) * s := by
  unfold wds
  rw [List.getD_eq_getElem _ _ (by simpa using hs)]
  simp

lemma along_node (g : List ℝ) (hs : g.Pairwise (· < ·)) (k : ℕ) (hk : k < g.length) (f : ℕ → ℝ) : along g (g.getD k 0) f = f k := by
  obtain ⟨i, j, t, hc, hm⟩ := cell_node g hs k hk
  rw [along_cell g hs _ _ _ _ hc, hm]

lemma inside_iff (g : List ℝ) (h : 0 < g.length) (p : ℝ) : inside g p = true ↔ g.getD 0 0 ≤ p ∧ p ≤ g.getD (g.length - 1) 0 := by
  unfold inside
  rw [List.head?_eq_getElem?, List.getLast?_eq_getElem?, List.getElem?_eq_getElem h,
    List.getElem?_eq_getElem (by omega : g.length - 1 < g.length), List.getD_eq_getElem _ _ h,
    List.getD_eq_getElem _ _ (by omega : g.length - 1 < g.length)]
  simp

lemma inside_node (g : List ℝ) (hs : g.Pairwise (· < ·)) (k : ℕ) (hk : k < g.length) : inside g (g.getD k 0) = true := by
  rw [inside_iff g (by omega)]
  exact ⟨getD_le g hs _ _ (by omega) hk, getD_le g hs _ _ (by omega) (by omega)⟩

lemma selected_sublist (n : ℕ) (p0 : ℝ) (res : ℕ) (b : Option (ℝ × ℝ)) : (selected n p0 res b).Sublist (List.range n) := by
  unfold selected
  cases b with
  | none => exact List.Sublist.refl _
  | some b => exact (List.take_sublist _ _).trans (List.drop_sublist _ _)

lemma selected_sorted (n : ℕ) (p0 : ℝ) (res : ℕ) (b : Option (ℝ × ℝ)) : (selected n p0 res b).Pairwise (· < ·) :=
  List.pairwise_lt_range.sublist (selected_sublist n p0 res b)

lemma selected_lt (n : ℕ) (p0 : ℝ) (res : ℕ) (b : Option (ℝ × ℝ)) (i : ℕ) (h : i ∈ selected n p0 res b) : i < n :=
  List.mem_range.1 ((selected_sublist n p0 res b).subset h)

lemma load_spec (F : File) (bnd : Option ((ℝ × ℝ) × (ℝ × ℝ))) (R : List ℕ × List ℕ) (h : load F bnd = some R) :
    R.1 = selected F.nx F.x0 F.res (bnd.map Prod.fst) ∧ R.2 = selected F.ny F.y0 F.res (bnd.map Prod.snd) ∧ accepted F ∧ 2 ≤ R.1.length ∧ 2 ≤ R.2.length := by
  unfold load at h
  simp only at h
  split_ifs at h with hc
  cases h
  exact ⟨rfl, rfl, hc⟩

/-! ## States -/

/-- Every combination of wind speed bin and sector is exactly one state; its wind speed is the centre of the bin, its direction that of the sector. -/
theorem C63_states (bins : List ℝ) (ns : ℕ) :
    (∀ k < size bins ns, ∃ i s, i + 1 < bins.length ∧ s < ns ∧ k = i * ns + s ∧
      stateData bins ns k = ((bins.getD i 0 + bins.getD (i + 1) 0) / 2, 360 / (ns : ℝ) * s, bins.getD (i + 1) 0 - bins.getD i 0)) ∧
    ∀ i s, i + 1 < bins.length → s < ns → i * ns + s < size bins ns ∧
      stateData bins ns (i * ns + s) = ((bins.getD i 0 + bins.getD (i + 1) 0) / 2, 360 / (ns : ℝ) * s, bins.getD (i + 1) 0 - bins.getD i 0) := by
  have key : ∀ i s, i + 1 < bins.length → s < ns → i * ns + s < size bins ns ∧
      stateData bins ns (i * ns + s) = ((bins.getD i 0 + bins.getD (i + 1) 0) / 2, 360 / (ns : ℝ) * s, bins.getD (i + 1) 0 - bins.getD i 0) := by
    intro i s hi hs
    have e1 : (i * ns + s) / ns = i := by
      rw [mul_comm, Nat.mul_add_div (by omega), Nat.div_eq_of_lt hs, Nat.add_zero]
    have e2 : (i * ns + s) % ns = s := by
      rw [mul_comm, Nat.mul_add_mod, Nat.mod_eq_of_lt hs]
    constructor
    · unfold size
      have : (i + 1) * ns ≤ (bins.length - 1) * ns := Nat.mul_le_mul_right _ (by omega)
      rw [Nat.add_mul] at this
      omega
    · unfold stateData
      simp only [e1, e2, wds_get ns s hs, Prod.mk.injEq, and_true]
      ring
  refine ⟨?_, key⟩
  intro k hk
  unfold size at hk
  have hns : 0 < ns := by
    rcases Nat.eq_zero_or_pos ns with h | h
    · rw [h] at hk; simp at hk
    · exact h
  have h1 : k / ns < bins.length - 1 := (Nat.div_lt_iff_lt_mul hns).2 hk
  have h1' : k / ns + 1 < bins.length := Nat.add_lt_of_lt_sub h1
  have h2 : k = k / ns * ns + k % ns := by rw [mul_comm]; exact (Nat.div_add_mod k ns).symm
  refine ⟨k / ns, k % ns, h1', Nat.mod_lt _ hns, h2, ?_⟩
  have := (key (k / ns) (k % ns) h1' (Nat.mod_lt _ hns)).2
  rw [← h2] at this
  exact this

/-! ## Values -/

/-- interpolation at grid nodes -/
lemma interp_node (F : File) (hr : 0 < F.res) (R : List ℕ × List ℕ) (h1 : R.1.Pairwise (· < ·)) (h2 : R.2.Pairwise (· < ·)) (q : Q) (i j s : ℕ)
    (hi : i < R.1.length) (hj : j < R.2.length) (hs : s < F.ns) :
    interp F R q ((coords F.x0 F.res R.1).getD i 0) ((coords F.y0 F.res R.2).getD j 0) ((wds F.ns).getD s 0) =
      gridValue F (R.1.getD i 0) (R.2.getD j 0) s q := by
  unfold interp
  rw [along_node _ (coords_sorted _ _ hr _ h1) i (by simpa [coords] using hi), along_node _ (coords_sorted _ _ hr _ h2) j (by simpa [coords] using hj),
    along_node _ (wds_sorted _) s (by simpa [wds] using hs)]

/-- At a grid point of the loaded region the weight is that of the Weibull data of the row with these coordinates: frequency, scale and shape in the units of
the format (per mille, tenths of m/s, hundredths; see `C63_percent`), if the rows of the file are in the expected order. -/
theorem C63_node (F : File) (hr : 0 < F.res) (bnd : Option ((ℝ × ℝ) × (ℝ × ℝ))) (R : List ℕ × List ℕ) (hl : load F bnd = some R) (ho : Ordered F)
    (r : Row) (hrow : r ∈ F.rows) (hx : r.x ∈ coords F.x0 F.res R.1) (hy : r.y ∈ coords F.y0 F.res R.2)
    (bins : List ℝ) (i s : ℕ) (hi : i + 1 < bins.length) (hs : s < F.ns) :
    calculate F R bins (i * F.ns + s) r.x r.y = some ⟨(bins.getD i 0 + bins.getD (i + 1) 0) / 2, 360 / (F.ns : ℝ) * s,
      weight ((bins.getD i 0 + bins.getD (i + 1) 0) / 2) (bins.getD (i + 1) 0 - bins.getD i 0) (r.a s / 10) (r.k s / 100) (r.f s / 10)⟩ := by
  obtain ⟨e1, e2, -, hlen1, hlen2⟩ := load_spec F bnd R hl
  have s1 : R.1.Pairwise (· < ·) := e1 ▸ selected_sorted ..
  have s2 : R.2.Pairwise (· < ·) := e2 ▸ selected_sorted ..
  have hrp : (0 : ℝ) < F.res := by exact_mod_cast hr
  obtain ⟨a, ha, hax⟩ := List.mem_iff_getElem.1 hx
  obtain ⟨b, hb, hby⟩ := List.mem_iff_getElem.1 hy
  have ha' : a < R.1.length := by simpa [coords] using ha
  have hb' : b < R.2.length := by simpa [coords] using hb
  have hm1 : R.1.getD a 0 < F.nx := by
    rw [List.getD_eq_getElem _ _ ha']
    exact selected_lt F.nx F.x0 F.res (bnd.map Prod.fst) _ (e1 ▸ List.getElem_mem ha')
  have hm2 : R.2.getD b 0 < F.ny := by
    rw [List.getD_eq_getElem _ _ hb']
    exact selected_lt F.ny F.y0 F.res (bnd.map Prod.snd) _ (e2 ▸ List.getElem_mem hb')
  have hxe : r.x = F.x0 + (R.1.getD a 0 : ℕ) * F.res := by
    rw [← hax, List.getD_eq_getElem _ _ ha']; simp [coords]
  have hye : r.y = F.y0 + (R.2.getD b 0 : ℕ) * F.res := by
    rw [← hby, List.getD_eq_getElem _ _ hb']; simp [coords]
  -- the row number of r
  obtain ⟨m, hm, hmr⟩ := List.mem_iff_getElem.1 hrow
  have hnx : 0 < F.nx := by omega
  have hmlt : m < F.nx * F.ny := by rw [← ho.1]; exact hm
  have hj : m / F.nx < F.ny := (Nat.div_lt_iff_lt_mul hnx).2 (by rw [mul_comm]; exact hmlt)
  have hi' : m % F.nx < F.nx := Nat.mod_lt _ hnx
  have hme : m / F.nx * F.nx + m % F.nx = m := by rw [mul_comm]; exact Nat.div_add_mod m F.nx
  obtain ⟨c1, c2⟩ := ho.2 (m % F.nx) hi' (m / F.nx) hj r (by rw [hme, List.getElem?_eq_getElem hm, hmr])
  have q1 : m % F.nx = R.1.getD a 0 := by
    have : ((m % F.nx : ℕ) : ℝ) * F.res = (R.1.getD a 0 : ℕ) * F.res := by linarith
    exact_mod_cast mul_right_cancel₀ hrp.ne' this
  have q2 : m / F.nx = R.2.getD b 0 := by
    have : ((m / F.nx : ℕ) : ℝ) * F.res = (R.2.getD b 0 : ℕ) * F.res := by linarith
    exact_mod_cast mul_right_cancel₀ hrp.ne' this
  have hgv : ∀ q, gridValue F (R.1.getD a 0) (R.2.getD b 0) s q = scaled r s q := by
    intro q
    unfold gridValue
    rw [← q1, ← q2, hme, List.getD_eq_getElem _ _ hm, hmr]
  have hst := ((C63_states bins F.ns).2 i s hi hs).2
  unfold calculate
  simp only [hst]
  have gx : r.x = (coords F.x0 F.res R.1).getD a 0 := by rw [List.getD_eq_getElem _ _ ha, hax]
  have gy : r.y = (coords F.y0 F.res R.2).getD b 0 := by rw [List.getD_eq_getElem _ _ hb, hby]
  rw [gx, gy, ← wds_get F.ns s hs, inside_node _ (coords_sorted _ _ hr _ s1) a ha, inside_node _ (coords_sorted _ _ hr _ s2) b hb,
    inside_node _ (wds_sorted _) s (by simpa [wds] using hs)]
  simp only [interp_node F hr R s1 s2 _ a b s ha' hb' hs, hgv, scaled, Bool.and_self, if_true]

/-- What is loaded has at least two grid points in each direction, and there are results between them only: no extrapolation. -/
theorem C63_region (F : File) (_hr : 0 < F.res) (bnd : Option ((ℝ × ℝ) × (ℝ × ℝ))) (R : List ℕ × List ℕ) (hl : load F bnd = some R) :
    (∃ i j, i ∈ R.1 ∧ j ∈ R.1 ∧ i < j) ∧ (∃ i j, i ∈ R.2 ∧ j ∈ R.2 ∧ i < j) ∧
    ∀ bins k px py, (calculate F R bins k px py).isSome = true →
      (∃ i j, i ∈ R.1 ∧ j ∈ R.1 ∧ F.x0 + i * F.res ≤ px ∧ px ≤ F.x0 + j * F.res) ∧ ∃ i j, i ∈ R.2 ∧ j ∈ R.2 ∧ F.y0 + i * F.res ≤ py ∧ py ≤ F.y0 + j * F.res := by
  obtain ⟨e1, e2, -, hlen1, hlen2⟩ := load_spec F bnd R hl
  have s1 : R.1.Pairwise (· < ·) := e1 ▸ selected_sorted ..
  have s2 : R.2.Pairwise (· < ·) := e2 ▸ selected_sorted ..
  have two : ∀ l : List ℕ, l.Pairwise (· < ·) → 2 ≤ l.length → ∃ i j, i ∈ l ∧ j ∈ l ∧ i < j := by
    intro l hs h
    exact ⟨l[0], l[1], List.getElem_mem _, List.getElem_mem _, List.pairwise_iff_getElem.1 hs 0 1 (by omega) (by omega) (by omega)⟩
  have ins : ∀ (p0 p : ℝ) (l : List ℕ), 2 ≤ l.length → inside (coords p0 F.res l) p = true → ∃ i j, i ∈ l ∧ j ∈ l ∧ p0 + i * F.res ≤ p ∧ p ≤ p0 + j * F.res := by
    intro p0 p l h hi
    have hc : (coords p0 F.res l).length = l.length := by simp [coords]
    rw [inside_iff _ (by omega), hc, List.getD_eq_getElem _ _ (by omega), List.getD_eq_getElem _ _ (by omega)] at hi
    simp only [coords, List.getElem_map] at hi
    exact ⟨l[0], l[l.length - 1], List.getElem_mem _, List.getElem_mem _, hi⟩
  refine ⟨two _ s1 hlen1, two _ s2 hlen2, ?_⟩
  intro bins k px py h
  unfold calculate at h
  simp only at h
  split_ifs at h with hc
  · simp only [Bool.and_eq_true] at hc
    exact ⟨ins _ _ _ hlen1 hc.1.1, ins _ _ _ hlen2 hc.1.2⟩
  · simp at h

/-- Between grid points the parameters are between the largest and the smallest value of the sector in the file. -/
theorem C63_between (F : File) (hr : 0 < F.res) (bnd : Option ((ℝ × ℝ) × (ℝ × ℝ))) (R : List ℕ × List ℕ) (hl : load F bnd = some R) (q : Q) (s : ℕ) (hs : s < F.ns)
    (lo hi : ℝ) (hv : ∀ r ∈ F.rows, lo ≤ scaled r s q ∧ scaled r s q ≤ hi) (px py : ℝ)
    (hx : inside (coords F.x0 F.res R.1) px = true) (hy : inside (coords F.y0 F.res R.2) py = true) :
    lo ≤ interp F R q px py (360 / (F.ns : ℝ) * s) ∧ interp F R q px py (360 / (F.ns : ℝ) * s) ≤ hi := by
  obtain ⟨e1, e2, hacc, hlen1, hlen2⟩ := load_spec F bnd R hl
  have s1 : R.1.Pairwise (· < ·) := e1 ▸ selected_sorted ..
  have s2 : R.2.Pairwise (· < ·) := e2 ▸ selected_sorted ..
  obtain ⟨i, j, t, hc⟩ := cell_exists _ px hx (by intro h; have : (coords F.x0 F.res R.1).length = 0 := by rw [h]; rfl
                                                  simp [coords] at this; rw [this] at hlen1; simp at hlen1)
  obtain ⟨i', j', t', hc'⟩ := cell_exists _ py hy (by intro h; have : (coords F.y0 F.res R.2).length = 0 := by rw [h]; rfl
                                                      simp [coords] at this; rw [this] at hlen2; simp at hlen2)
  have g1 := coords_sorted F.x0 F.res hr _ s1
  have g2 := coords_sorted F.y0 F.res hr _ s2
  obtain ⟨t0, t1, ti, tj⟩ := cell_t _ g1 _ _ _ _ hc
  obtain ⟨u0, u1, ui, uj⟩ := cell_t _ g2 _ _ _ _ hc'
  have hg : ∀ a b, a < R.1.length → b < R.2.length → lo ≤ gridValue F (R.1.getD a 0) (R.2.getD b 0) s q ∧ gridValue F (R.1.getD a 0) (R.2.getD b 0) s q ≤ hi := by
    intro a b ha hb
    have hm1 : R.1.getD a 0 < F.nx := by
      rw [List.getD_eq_getElem _ _ ha]
      exact selected_lt F.nx F.x0 F.res (bnd.map Prod.fst) _ (e1 ▸ List.getElem_mem ha)
    have hm2 : R.2.getD b 0 < F.ny := by
      rw [List.getD_eq_getElem _ _ hb]
      exact selected_lt F.ny F.y0 F.res (bnd.map Prod.snd) _ (e2 ▸ List.getElem_mem hb)
    have hlt : R.2.getD b 0 * F.nx + R.1.getD a 0 < F.rows.length := by
      rw [hacc]
      have : (R.2.getD b 0 + 1) * F.nx ≤ F.ny * F.nx := Nat.mul_le_mul_right _ hm2
      rw [Nat.add_mul, one_mul] at this
      rw [mul_comm F.nx]
      omega
    unfold gridValue
    rw [List.getD_eq_getElem _ _ hlt]
    exact hv _ (List.getElem_mem hlt)
  have li : i < R.1.length := by simpa [coords] using ti
  have lj : j < R.1.length := by simpa [coords] using tj
  have li' : i' < R.2.length := by simpa [coords] using ui
  have lj' : j' < R.2.length := by simpa [coords] using uj
  unfold interp
  rw [along_cell _ g1 _ _ _ _ hc, along_cell _ g2 _ _ _ _ hc', along_cell _ g2 _ _ _ _ hc']
  simp only [← wds_get F.ns s hs, along_node _ (wds_sorted F.ns) s (by simpa [wds] using hs)]
  exact mix_bounds _ _ _ _ _ t0 t1 (mix_bounds _ _ _ _ _ u0 u1 (hg _ _ li li') (hg _ _ li lj')) (mix_bounds _ _ _ _ _ u0 u1 (hg _ _ lj li') (hg _ _ lj lj'))

/-- Weights are not negative. -/
theorem C63_weight_nonneg (ws dws A k f : ℝ) (h1 : 0 ≤ ws) (h2 : 0 ≤ dws) (h3 : 0 ≤ A) (h4 : 0 ≤ k) (h5 : 0 ≤ f) : 0 ≤ weight ws dws A k f := by
  unfold weight
  have : 0 ≤ (ws / A) ^ (k - 1) := Real.rpow_nonneg (div_nonneg h1 h3) _
  have := Real.exp_pos (-(ws / A) ^ k)
  positivity

/-! ## Distribution -/

/-- the density of `weight` -/
def density (A k v : ℝ) : ℝ := k / A * (v / A) ^ (k - 1) * Real.exp (-(v / A) ^ k)

lemma density_deriv (A k : ℝ) (hk : 1 ≤ k) (v : ℝ) : HasDerivAt (weibull A k) (density A k v) v := by
  have h1 : HasDerivAt (fun v : ℝ => v / A) (1 / A) v := (hasDerivAt_id v).div_const A
  have h2 : HasDerivAt (fun v : ℝ => (v / A) ^ k) (1 / A * k * (v / A) ^ (k - 1)) v := h1.rpow_const (Or.inr hk)
  have h3 := (h2.neg.exp).const_sub 1
  refine h3.congr_deriv ?_
  unfold density
  simp only [Pi.neg_apply]
  ring

lemma density_cont (A k : ℝ) (hk : 1 ≤ k) : Continuous (density A k) := by
  unfold density
  have h1 : Continuous fun v : ℝ => v / A := continuous_id.div_const A
  have h2 : Continuous fun v : ℝ => (v / A) ^ (k - 1) := h1.rpow_const fun _ => Or.inr (by linarith)
  have h3 : Continuous fun v : ℝ => (v / A) ^ k := h1.rpow_const fun _ => Or.inr (by linarith)
  exact (continuous_const.mul h2).mul h3.neg.rexp

/-- midpoint sums of a continuous derivative converge to the increment -/
lemma midpoint_limit (f G : ℝ → ℝ) (W : ℝ) (hW : 0 < W) (hf : Continuous f) (hG : ∀ v, HasDerivAt G (f v) v) :
    Filter.Tendsto (fun n : ℕ => ∑ i ∈ Finset.range n, W / n * f (W / n * (i + 1 / 2))) Filter.atTop (nhds (G W - G 0)) := by
  have huc : UniformContinuousOn f (Set.Icc 0 W) := isCompact_Icc.uniformContinuousOn_of_continuous hf.continuousOn
  rw [Metric.tendsto_atTop]
  intro ε hε
  obtain ⟨δ, hδ, hd⟩ := Metric.uniformContinuousOn_iff.1 huc (ε / (2 * W)) (by positivity)
  obtain ⟨N, hN⟩ := exists_nat_gt (W / δ)
  refine ⟨N + 1, fun n hn => ?_⟩
  have hn0 : (0 : ℝ) < n := by exact_mod_cast (by omega : 0 < n)
  set h := W / n with hh
  have hpos : 0 < h := by positivity
  have hlt : h < δ := by
    have h1 : W / δ < n := hN.trans (by exact_mod_cast (by omega : N < n))
    rw [hh, div_lt_iff₀ hn0]
    rw [div_lt_iff₀ hδ] at h1
    linarith
  have hnh : h * n = W := by rw [hh]; field_simp
  have hstep : ∀ i < n, |h * f (h * (i + 1 / 2)) - (G (h * (i + 1 : ℕ)) - G (h * i))| ≤ h * (ε / (2 * W)) := by
    intro i hi
    have hi' : (i : ℝ) + 1 ≤ n := by exact_mod_cast hi
    have hi0 : (0 : ℝ) ≤ i := Nat.cast_nonneg i
    have hlt' : h * i < h * (i + 1 : ℕ) := by push_cast; nlinarith
    obtain ⟨c, hc, hce⟩ := exists_hasDerivAt_eq_slope G f hlt' (fun x _ => (hG x).continuousAt.continuousWithinAt) (fun x _ => hG x)
    have hden : h * ((i + 1 : ℕ) : ℝ) - h * i = h := by push_cast; ring
    rw [hden, eq_div_iff hpos.ne'] at hce
    rw [← hce]
    have hmem : ∀ y, h * i ≤ y → y ≤ h * (i + 1 : ℕ) → y ∈ Set.Icc (0 : ℝ) W := by
      intro y h1 h2
      push_cast at h2
      constructor <;> nlinarith
    have hc1 := hc.1
    have hc2 := hc.2
    push_cast at hc2
    have hdist := hd (h * (i + 1 / 2)) (hmem _ (by nlinarith) (by push_cast; nlinarith)) c (hmem c hc.1.le hc.2.le) (by
      rw [Real.dist_eq]
      apply lt_of_le_of_lt _ hlt
      rw [abs_le]
      constructor <;> nlinarith)
    rw [Real.dist_eq] at hdist
    rw [show h * f (h * (i + 1 / 2)) - f c * h = h * (f (h * (i + 1 / 2)) - f c) by ring, abs_mul, abs_of_pos hpos]
    exact mul_le_mul_of_nonneg_left hdist.le hpos.le
  have htel : ∑ i ∈ Finset.range n, (G (h * (i + 1 : ℕ)) - G (h * i)) = G W - G 0 := by
    rw [Finset.sum_range_sub (fun i : ℕ => G (h * i)) n, hnh]
    simp
  rw [Real.dist_eq, ← htel, ← Finset.sum_sub_distrib]
  refine lt_of_le_of_lt (Finset.abs_sum_le_sum_abs _ _) ?_
  refine lt_of_le_of_lt (Finset.sum_le_sum fun i hi => hstep i (Finset.mem_range.1 hi)) ?_
  rw [Finset.sum_const, Finset.card_range, nsmul_eq_mul]
  have : (n : ℝ) * (h * (ε / (2 * W))) = ε / 2 := by
    rw [show (n : ℝ) * (h * (ε / (2 * W))) = (h * n) * (ε / (2 * W)) by ring, hnh]
    field_simp
  rw [this]
  linarith

lemma equalBins_get (W : ℝ) (n i : ℕ) (h : i ≤ n) : (equalBins W n).getD i 0 = W / n * i := by
  unfold equalBins
  rw [List.getD_eq_getElem _ _ (by simpa using by omega)]
  simp

/-- The weights of a sector's states at a point add up to the sector frequency there times the probability of its Weibull distribution, in the limit of
fine wind speed bins. -/
theorem C63_total (F : File) (R : List ℕ × List ℕ) (s : ℕ) (hs : s < F.ns) (px py : ℝ)
    (hx : inside (coords F.x0 F.res R.1) px = true) (hy : inside (coords F.y0 F.res R.2) py = true) (A k f W : ℝ)
    (eA : interp F R .A px py (360 / (F.ns : ℝ) * s) = A) (ek : interp F R .K px py (360 / (F.ns : ℝ) * s) = k)
    (ef : interp F R .F px py (360 / (F.ns : ℝ) * s) = f) (_hA : 0 < A) (hk : 1 ≤ k) (hW : 0 < W) :
    Filter.Tendsto (fun n : ℕ => ∑ i ∈ Finset.range n, ((calculate F R (equalBins W n) (i * F.ns + s) px py).map Res.weight).getD 0) Filter.atTop
      (nhds (f * weibull A k W)) := by
  have h0 : weibull A k 0 = 0 := by
    unfold weibull
    rw [zero_div, Real.zero_rpow (by linarith)]
    simp
  have hm := (midpoint_limit (density A k) (weibull A k) W hW (density_cont A k hk) (density_deriv A k hk)).const_mul f
  rw [h0, sub_zero] at hm
  refine hm.congr fun n => ?_
  rw [Finset.mul_sum]
  refine Finset.sum_congr rfl fun i hi => ?_
  have hi' : i < n := Finset.mem_range.1 hi
  have hst := ((C63_states (equalBins W n) F.ns).2 i s (by simpa [equalBins] using hi') hs).2
  have hin : inside (wds F.ns) (360 / (F.ns : ℝ) * s) = true := by
    rw [← wds_get F.ns s hs]
    exact inside_node _ (wds_sorted _) s (by simpa [wds] using hs)
  unfold calculate
  simp only [hst, hx, hy, hin, Bool.and_self, if_true, Option.map_some, Option.getD_some, eA, ek, ef]
  rw [equalBins_get W n i (by omega), equalBins_get W n (i + 1) (by omega)]
  unfold weight density
  push_cast
  have e1 : (W / n * (i : ℝ) + W / n * (i + 1)) / 2 = W / n * (i + 1 / 2) := by ring
  have e2 : W / n * ((i : ℝ) + 1) - W / n * i = W / n := by ring
  rw [e1, e2]

/-- In files with frequencies in per mille, as the format defines, the frequencies that multiply the weights add up to 100, not to 1: unless they are
normalised, all weights are a hundred times too large. -/
theorem C63_percent (F : File) (r : Row) (h : ∑ s ∈ Finset.range F.ns, r.f s = 1000) : ∑ s ∈ Finset.range F.ns, scaled r s .F = 100 := by
  unfold scaled
  rw [← Finset.sum_div, h]
  norm_num

/-- The coordinates in the rows of the file are never used: files that differ in them only give the same results, so rows in any other order than x fastest
from the lower left are silently taken for other points. -/
theorem C63_coordinates_ignored (F G : File) (hh : F.nx = G.nx ∧ F.ny = G.ny ∧ F.x0 = G.x0 ∧ F.y0 = G.y0 ∧ F.res = G.res ∧ F.ns = G.ns)
    (hr : F.rows.map (fun r => (r.f, r.a, r.k)) = G.rows.map fun r => (r.f, r.a, r.k)) (bnd : Option ((ℝ × ℝ) × (ℝ × ℝ))) :
    load F bnd = load G bnd ∧ ∀ R bins k px py, calculate F R bins k px py = calculate G R bins k px py := by
  obtain ⟨h1, h2, h3, h4, h5, h6⟩ := hh
  have hlen : F.rows.length = G.rows.length := by
    have := congrArg List.length hr
    simpa using this
  have hg : ∀ i j s q, gridValue F i j s q = gridValue G i j s q := by
    intro i j s q
    unfold gridValue
    rw [h1]
    by_cases hl : j * G.nx + i < F.rows.length
    · have hl' : j * G.nx + i < G.rows.length := hlen ▸ hl
      have := congrArg (fun l => l[j * G.nx + i]?) hr
      simp only [List.getElem?_map, List.getElem?_eq_getElem hl, List.getElem?_eq_getElem hl', Option.map_some, Option.some.injEq, Prod.mk.injEq] at this
      rw [List.getD_eq_getElem _ _ hl, List.getD_eq_getElem _ _ hl']
      cases q <;> simp [scaled, this]
    · rw [List.getD_eq_default _ _ (by omega), List.getD_eq_default _ _ (by omega)]
  constructor
  · unfold load accepted
    rw [h1, h2, h3, h4, h5, hlen]
  · intro R bins k px py
    have hi : ∀ q wd, interp F R q px py wd = interp G R q px py wd := by
      intro q wd
      unfold interp
      simp only [hg, h3, h4, h5, h6]
    unfold calculate
    simp only [hi, h3, h4, h5, h6]

/-! ## Bounds -/

lemma slice_get (n a b : ℕ) (i : ℕ) (h : i < (((List.range n).drop a).take (b - a)).length) : (((List.range n).drop a).take (b - a)).getD i 0 = a + i := by
  rw [List.getD_eq_getElem _ _ h]
  simp

lemma slice_len (n a b : ℕ) : (((List.range n).drop a).take (b - a)).length = min (b - a) (n - a) := by simp

lemma trunc_nonneg (r : ℝ) (h : 0 ≤ r) : trunc r = (⌊r⌋₊ : ℤ) := by
  unfold trunc
  rw [if_pos h]
  exact (Int.natCast_floor_eq_floor h).symm

lemma pyIndex_nat (n m : ℕ) : pyIndex n (m : ℤ) = min m n := by
  unfold pyIndex
  rw [if_neg (by omega)]
  simp

/-- one axis: data cover the turbine, extra space at least the resolution and not more than one cell beyond the lower end of the data -/
lemma axis_covers (n : ℕ) (p0 : ℝ) (res : ℕ) (hr : 0 < res) (lo hi t e : ℝ) (he : res ≤ e) (h1 : lo ≤ t - e) (h2 : t + e ≤ hi)
    (hlo : p0 - res < lo) (ht1 : p0 ≤ t) (ht2 : t ≤ p0 + (n - 1 : ℕ) * res) (hn : 2 ≤ n) :
    2 ≤ (selected n p0 res (some (lo, hi))).length ∧ inside (coords p0 res (selected n p0 res (some (lo, hi)))) t = true := by
  have hrp : (0 : ℝ) < res := by exact_mod_cast hr
  have hhi : 0 ≤ (hi - p0) / res := div_nonneg (by linarith) hrp.le
  have hf1 : (⌊(hi - p0) / res⌋₊ : ℝ) ≤ (hi - p0) / res := Nat.floor_le hhi
  have hf2 : (hi - p0) / res < ⌊(hi - p0) / res⌋₊ + 1 := Nat.lt_floor_add_one _
  have hb : pyIndex n (trunc ((hi - p0) / res) + 1) = min (⌊(hi - p0) / res⌋₊ + 1) n := by
    rw [trunc_nonneg _ hhi]
    exact pyIndex_nat n (⌊(hi - p0) / res⌋₊ + 1)
  obtain ⟨a, ha, han, hat, hab⟩ : ∃ a : ℕ, pyIndex n (trunc ((lo - p0) / res)) = a ∧ a + 1 < n ∧ p0 + a * res ≤ t ∧ a + 1 ≤ ⌊(hi - p0) / res⌋₊ := by
    by_cases h0 : 0 ≤ (lo - p0) / res
    · have hg : (⌊(lo - p0) / res⌋₊ : ℝ) ≤ (lo - p0) / res := Nat.floor_le h0
      rw [le_div_iff₀ hrp] at hg
      have hlt : ⌊(lo - p0) / res⌋₊ + 1 < n := by
        have : ((⌊(lo - p0) / res⌋₊ + 1 : ℕ) : ℝ) * res ≤ (n - 1 : ℕ) * res := by push_cast; nlinarith
        have : ⌊(lo - p0) / res⌋₊ + 1 ≤ n - 1 := by exact_mod_cast le_of_mul_le_mul_right this hrp
        omega
      refine ⟨⌊(lo - p0) / res⌋₊, ?_, hlt, by nlinarith, ?_⟩
      · rw [trunc_nonneg _ h0, pyIndex_nat, min_eq_left (by omega)]
      · apply Nat.le_floor
        rw [le_div_iff₀ hrp]
        push_cast
        nlinarith
    · have hc : trunc ((lo - p0) / res) = 0 := by
        unfold trunc
        rw [if_neg h0, Int.ceil_eq_iff]
        push Not at h0
        constructor
        · rw [lt_div_iff₀ hrp]; push_cast; linarith
        · push_cast; exact h0.le
      refine ⟨0, by rw [hc]; simp [pyIndex], by omega, by simpa using ht1, ?_⟩
      apply Nat.le_floor
      rw [le_div_iff₀ hrp]
      push_cast
      linarith
  have hsel : selected n p0 res (some (lo, hi)) = ((List.range n).drop a).take (min (⌊(hi - p0) / res⌋₊ + 1) n - a) := by
    unfold selected
    simp only [ha, hb]
  set b := min (⌊(hi - p0) / res⌋₊ + 1) n with hbdef
  have hb2 : a + 2 ≤ b := by rw [hbdef]; omega
  have hbn : b ≤ n := min_le_right _ _
  have hlen : (selected n p0 res (some (lo, hi))).length = b - a := by
    rw [hsel, slice_len]; omega
  refine ⟨by omega, ?_⟩
  have hcl : (coords p0 res (selected n p0 res (some (lo, hi)))).length = b - a := by simpa [coords] using hlen
  rw [inside_iff _ (by omega)]
  have hget : ∀ i < b - a, (coords p0 res (selected n p0 res (some (lo, hi)))).getD i 0 = p0 + (a + i : ℕ) * res := by
    intro i hi'
    rw [List.getD_eq_getElem _ _ (by omega)]
    simp only [coords, List.getElem_map]
    have := slice_get n a b i (by rw [slice_len]; omega)
    rw [List.getD_eq_getElem _ _ (by rw [slice_len]; omega)] at this
    simp only [hsel, this]
  rw [hget 0 (by omega), hcl, hget (b - a - 1) (by omega)]
  refine ⟨by simpa using hat, ?_⟩
  rw [show a + (b - a - 1) = b - 1 by omega]
  by_cases hmin : ⌊(hi - p0) / res⌋₊ + 1 ≤ n
  · have : b - 1 = ⌊(hi - p0) / res⌋₊ := by rw [hbdef, min_eq_left hmin]; omega
    rw [this]
    rw [div_lt_iff₀ hrp] at hf2
    nlinarith
  · have : b - 1 = n - 1 := by rw [hbdef, min_eq_right (by omega)]
    rw [this]
    exact ht2

/-- The calculation works for all turbines that the data cover, if the extra space around the farm is at least the resolution of the data, and reaches less
than one cell beyond their lower left corner. -/
theorem C63_covers_partial (F : File) (hr : 0 < F.res) (hacc : accepted F) (hnx : 2 ≤ F.nx) (hny : 2 ≤ F.ny) (lo hi : ℝ × ℝ) (e : ℝ) (he : F.res ≤ e)
    (h0 : F.x0 - F.res < lo.1 ∧ F.y0 - F.res < lo.2) (ts : List (ℝ × ℝ)) (hts : ts ≠ [])
    (hb : ∀ t ∈ ts, lo.1 ≤ t.1 - e ∧ t.1 + e ≤ hi.1 ∧ lo.2 ≤ t.2 - e ∧ t.2 + e ≤ hi.2)
    (hc : ∀ t ∈ ts, F.x0 ≤ t.1 ∧ t.1 ≤ F.x0 + (F.nx - 1 : ℕ) * F.res ∧ F.y0 ≤ t.2 ∧ t.2 ≤ F.y0 + (F.ny - 1 : ℕ) * F.res) :
    ∃ R, load F (some ((lo.1, hi.1), (lo.2, hi.2))) = some R ∧
      ∀ t ∈ ts, ∀ bins k, k < size bins F.ns → (calculate F R bins k t.1 t.2).isSome = true := by
  have hx : ∀ t ∈ ts, _ := fun t ht => axis_covers F.nx F.x0 F.res hr lo.1 hi.1 t.1 e he (hb t ht).1 (hb t ht).2.1 h0.1 (hc t ht).1 (hc t ht).2.1 hnx
  have hy : ∀ t ∈ ts, _ := fun t ht => axis_covers F.ny F.y0 F.res hr lo.2 hi.2 t.2 e he (hb t ht).2.2.1 (hb t ht).2.2.2 h0.2 (hc t ht).2.2.1 (hc t ht).2.2.2 hny
  obtain ⟨t0, ht0⟩ := List.exists_mem_of_ne_nil ts hts
  refine ⟨(selected F.nx F.x0 F.res (some (lo.1, hi.1)), selected F.ny F.y0 F.res (some (lo.2, hi.2))), ?_, ?_⟩
  · unfold load
    simp only [Option.map_some]
    rw [if_pos ⟨hacc, (hx t0 ht0).1, (hy t0 ht0).1⟩]
  · intro t ht bins k hk
    obtain ⟨i, s, hi', hs, hke, hst⟩ := (C63_states bins F.ns).1 k hk
    have hin : inside (wds F.ns) (360 / (F.ns : ℝ) * s) = true := by
      rw [← wds_get F.ns s hs]
      exact inside_node _ (wds_sorted _) s (by simpa [wds] using hs)
    unfold calculate
    simp only [hst, (hx t ht).2, (hy t ht).2, hin, Bool.and_self, if_true, Option.isSome_some]

/-- With less extra space the calculation can fail for turbines inside the data: the last grid point that is loaded is below the upper end of the farm's
bounds, so turbines beyond it raise an error (here for the x direction). -/
theorem C63_upper_cut (F : File) (hr : 0 < F.res) (lo hi : ℝ × ℝ) (t : ℝ × ℝ) (m : ℕ) (hm : m < F.nx)
    (h1 : F.x0 + m * F.res ≤ hi.1) (h2 : hi.1 < F.x0 + (m + 1) * F.res) (ht : F.x0 + m * F.res < t.1) (R : List ℕ × List ℕ)
    (hR : load F (some ((lo.1, hi.1), (lo.2, hi.2))) = some R) (bins : List ℝ) (k : ℕ) : calculate F R bins k t.1 t.2 = none := by
  have hrp : (0 : ℝ) < F.res := by exact_mod_cast hr
  obtain ⟨e1, -, -, hl, -⟩ := load_spec F _ R hR
  simp only [Option.map_some] at e1
  have hfl : ⌊(hi.1 - F.x0) / F.res⌋₊ = m := by
    rw [Nat.floor_eq_iff (div_nonneg (by nlinarith [Nat.cast_nonneg (α := ℝ) m]) hrp.le)]
    constructor
    · rw [le_div_iff₀ hrp]; linarith
    · rw [div_lt_iff₀ hrp]; linarith
  have hhi : 0 ≤ (hi.1 - F.x0) / F.res := div_nonneg (by nlinarith [Nat.cast_nonneg (α := ℝ) m]) hrp.le
  have hb : pyIndex F.nx (trunc ((hi.1 - F.x0) / F.res) + 1) = m + 1 := by
    rw [trunc_nonneg _ hhi, hfl]
    have := pyIndex_nat F.nx (m + 1)
    push_cast at this
    rw [this, min_eq_left (by omega)]
  set a := pyIndex F.nx (trunc ((lo.1 - F.x0) / F.res)) with ha
  have hsel : R.1 = ((List.range F.nx).drop a).take (m + 1 - a) := by
    rw [e1]; unfold selected; simp only [hb, ← ha]
  have hlen : R.1.length = min (m + 1 - a) (F.nx - a) := by rw [hsel, slice_len]
  have hcl : (coords F.x0 F.res R.1).length = R.1.length := by simp [coords]
  have hin : inside (coords F.x0 F.res R.1) t.1 = false := by
    rw [Bool.eq_false_iff, ne_eq, inside_iff _ (by omega), not_and_or]
    right
    rw [not_le]
    refine lt_of_le_of_lt ?_ ht
    rw [hcl, List.getD_eq_getElem _ _ (by omega)]
    simp only [coords, List.getElem_map]
    have := slice_get F.nx a (m + 1) (R.1.length - 1) (by rw [← hsel]; omega)
    rw [← hsel, List.getD_eq_getElem _ _ (by omega)] at this
    rw [this]
    have hle : ((a + (R.1.length - 1) : ℕ) : ℝ) ≤ m := by exact_mod_cast (by omega)
    nlinarith
  unfold calculate
  simp [hin]

/-- If the extra space reaches a cell or more beyond the lower end of the data, the start of the selection counts from the other end: the data are refused,
although they cover the farm (here for the x direction, if the farm does not reach the upper end of the data). -/
theorem C63_lower_wrap (F : File) (hr : 0 < F.res) (lo hi : ℝ × ℝ) (m : ℕ) (hm : 1 ≤ m) (hmn : m ≤ F.nx) (h1 : F.x0 - (m + 1) * F.res < lo.1)
    (h2 : lo.1 ≤ F.x0 - m * F.res) (h3 : F.x0 ≤ hi.1) (h4 : hi.1 < F.x0 + ((F.nx : ℝ) - m) * F.res) : load F (some ((lo.1, hi.1), (lo.2, hi.2))) = none := by
  have hrp : (0 : ℝ) < F.res := by exact_mod_cast hr
  have hm1 : (1 : ℝ) ≤ m := by exact_mod_cast hm
  have ht : trunc ((lo.1 - F.x0) / F.res) = -(m : ℤ) := by
    have hneg : (lo.1 - F.x0) / F.res ≤ -m := by rw [div_le_iff₀ hrp]; linarith
    unfold trunc
    rw [if_neg (by linarith), Int.ceil_eq_iff]
    constructor
    · rw [lt_div_iff₀ hrp]; push_cast; linarith
    · push_cast; exact hneg
  have ha : pyIndex F.nx (trunc ((lo.1 - F.x0) / F.res)) = F.nx - m := by
    rw [ht]
    unfold pyIndex
    rw [if_pos (by omega)]
    omega
  have hhi : 0 ≤ (hi.1 - F.x0) / F.res := div_nonneg (by linarith) hrp.le
  have hb : pyIndex F.nx (trunc ((hi.1 - F.x0) / F.res) + 1) ≤ F.nx - m := by
    rw [trunc_nonneg _ hhi]
    have := pyIndex_nat F.nx (⌊(hi.1 - F.x0) / F.res⌋₊ + 1)
    push_cast at this
    rw [this]
    have : ⌊(hi.1 - F.x0) / F.res⌋₊ < F.nx - m := by
      rw [Nat.floor_lt hhi, div_lt_iff₀ hrp, Nat.cast_sub hmn]
      linarith
    omega
  have hlen : (selected F.nx F.x0 F.res (some (lo.1, hi.1))).length = 0 := by
    unfold selected
    simp only
    rw [slice_len, ha]
    omega
  unfold load
  simp only [Option.map_some, hlen]
  rw [if_neg (by omega)]

/-! ## Non-vacuity -/

/-- 3 x 3 points, 100 m apart, two sectors -/
def exFile : File := ⟨3, 3, 0, 0, 100, 2, (List.range 9).map fun m : ℕ => ⟨100 * (m % 3 : ℕ), 100 * (m / 3 : ℕ), fun s => 300 + 400 * s, fun _ => 90 + m, fun _ => 200⟩⟩

lemma exFile_ordered : Ordered exFile := by
  refine ⟨rfl, ?_⟩
  intro i hi j hj r hr
  have hi' : i < 3 := hi
  have hj' : j < 3 := hj
  have hlt : j * 3 + i < 9 := by omega
  have e1 : (j * 3 + i) % 3 = i := by omega
  have e2 : (j * 3 + i) / 3 = j := by omega
  simp only [exFile, List.getElem?_map, List.getElem?_range hlt, Option.map_some, Option.some.injEq] at hr
  rw [← hr, e1, e2]
  simp only [exFile]
  push_cast
  constructor <;> ring

lemma exFile_load : load exFile none = some ([0, 1, 2], [0, 1, 2]) := by
  simp [load, accepted, exFile, selected, List.range_succ]

/-- the row of the point (100, 100) is number 4 -/
example : calculate exFile ([0, 1, 2], [0, 1, 2]) [0, 2] 0 100 100 = some ⟨1, 0, weight 1 2 9.4 2 30⟩ := by
  have := C63_node exFile (by norm_num [exFile]) none _ exFile_load exFile_ordered ⟨100, 100, fun s => 300 + 400 * s, fun _ => 94, fun _ => 200⟩
    (List.mem_map.2 ⟨4, by simp, by norm_num⟩) (by simp [coords, exFile]) (by simp [coords, exFile]) [0, 2] 0 0 (by simp) (by norm_num [exFile])
  norm_num [exFile] at this ⊢
  exact this

/-- a turbine at (100, 100), extra space of 100 m -/
example : ∃ R, load exFile (some ((0, 200), (0, 200))) = some R ∧
    ∀ bins k, k < size bins exFile.ns → (calculate exFile R bins k 100 100).isSome = true := by
  obtain ⟨R, h1, h2⟩ := C63_covers_partial exFile (by norm_num [exFile]) (by simp [accepted, exFile]) (by norm_num [exFile]) (by norm_num [exFile])
    (0, 0) (200, 200) 100 (by norm_num [exFile]) (by norm_num [exFile]) [(100, 100)] (by simp) (by simp; norm_num) (by norm_num [exFile])
  exact ⟨R, h1, fun bins k hk => h2 (100, 100) (by simp) bins k hk⟩

/-- a turbine at (160, 150), extra space of 30 m: the bounds reach to 190 m, the data are loaded up to 100 m, the calculation fails -/
example : ∀ R, load exFile (some ((0, 190), (0, 190))) = some R → calculate exFile R [0, 1] 0 160 150 = none := fun R hR =>
  C63_upper_cut exFile (by norm_num [exFile]) (0, 0) (190, 190) (160, 150) 1 (by norm_num [exFile]) (by norm_num [exFile])
    (by norm_num [exFile]) (by norm_num [exFile]) R hR [0, 1] 0

/-- a turbine at (30, 30), extra space of 150 m: refused -/
example : load exFile (some ((-120, 180), (-120, 180))) = none :=
  C63_lower_wrap exFile (by norm_num [exFile]) (-120, -120) (180, 180) 1 (by norm_num) (by norm_num [exFile]) (by norm_num [exFile]) (by norm_num [exFile])
    (by norm_num [exFile]) (by norm_num [exFile])

end

end Foxes.Props.Wrg
