import Verif.Model.TwoTables
import Verif.Props.Lookup
/-
C73: power and thrust from two tables over wind speed and turbulence intensity or air density.
-/
namespace Foxes.Props.TwoTables
open Foxes.TwoTables
open Foxes.FieldData (along inside)
open Foxes.Props.FieldData (Cell mix along_cell cell_node cell_exists cell_t mix_bounds)
open Foxes.Props.Lookup (along_node along_mix inside_range sorted_eq_of_mem)

noncomputable section
open scoped Classical

/-! ### Specification -/

/-- the cell of the user's table at wind speed `w` and column `c` -/
def Cell2 (F : Frame) (w c v : ℝ) : Prop := ∃ r ∈ F.rows, r.1 = w ∧ ∃ j : ℕ, F.cols[j]? = some c ∧ r.2[j]? = some v

/-- a proper table: no wind speed and no column twice, all rows complete -/
def Proper (F : Frame) : Prop := (F.rows.map Prod.fst).Nodup ∧ F.cols.Nodup ∧ ∀ r ∈ F.rows, r.2.length = F.cols.length

/-- the value of the user's table at a point, as the model calculates it; `none`: it raises -/
def look (F : Frame) (w q : ℝ) : Option ℝ := interpn (load F).2 (some w, some q)

/-- the point is within the ranges of the table -/
def Covered (F : Frame) (w q : ℝ) : Prop :=
  ((∃ a ∈ F.rows.map Prod.fst, a ≤ w) ∧ ∃ b ∈ F.rows.map Prod.fst, w ≤ b) ∧ (∃ a ∈ F.cols, a ≤ q) ∧ ∃ b ∈ F.cols, q ≤ b

/-- the wind speed is within the range of the table -/
def InRange (F : Frame) (w : ℝ) : Prop := (∃ a ∈ F.rows.map Prod.fst, a ≤ w) ∧ ∃ b ∈ F.rows.map Prod.fst, w ≤ b

/-- the wind speed of one entry with density correction: variable `v`, times the density factor -/
def speedRho {E : Type} (rho : Option ℝ) (eRho : ℝ) (fd : Fd E) (v : String) (e : E) : Option ℝ :=
  match rho with
  | none => (fd v).bind (fun a => a e)
  | some r => mul ((fd v).bind (fun a => a e)) (rhoFactor r eRho ((fd "RHO").bind (fun a => a e)))

/-- the corrected wind speed of one entry: with the density correction, times the yaw factor -/
def speedAt {E : Type} (rho : Option ℝ) (eRho : ℝ) (p : Option ℝ) (eYaw : ℝ) (fd : Fd E) (v : String) (e : E) : Option ℝ :=
  match fd "YAWM", p with
  | some y, some p => mul (speedRho rho eRho fd v e) ((y e).bind (yawFactor p eYaw))
  | _, _ => speedRho rho eRho fd v e

/-! ### Loading -/

lemma sorted_rows (F : Frame) : ((sortFrame F).rows).Pairwise (fun a b => a.1 ≤ b.1) := by
  let : Std.Total (fun a b : ℝ × List ℝ => a.1 ≤ b.1) := ⟨fun a b => le_total a.1 b.1⟩
  let : IsTrans (ℝ × List ℝ) (fun a b => a.1 ≤ b.1) := ⟨fun a b c h1 h2 => le_trans h1 h2⟩
  exact List.pairwise_insertionSort (fun a b : ℝ × List ℝ => a.1 ≤ b.1) F.rows

lemma rows_perm (F : Frame) : (sortFrame F).rows.Perm F.rows := by
  unfold sortFrame; exact List.perm_insertionSort _ _

lemma ws_sorted (F : Frame) (h : (F.rows.map Prod.fst).Nodup) : (load F).2.ws.Pairwise (· < ·) := by
  have hn : ((sortFrame F).rows.map Prod.fst).Nodup := ((rows_perm F).map _).nodup_iff.2 h
  show ((sortFrame F).rows.map Prod.fst).Pairwise (· < ·)
  rw [List.Nodup, List.pairwise_map] at hn
  rw [List.pairwise_map]
  exact ((sorted_rows F).and hn).imp (fun h => lt_of_le_of_ne h.1 h.2)

lemma ws_mem (F : Frame) (w : ℝ) : w ∈ (load F).2.ws ↔ w ∈ F.rows.map Prod.fst := ((rows_perm F).map Prod.fst).mem_iff

lemma qs_mem (F : Frame) (w : ℝ) : w ∈ (load F).2.qs ↔ w ∈ F.cols := (List.perm_insertionSort _ _).mem_iff

lemma qs_sorted (F : Frame) (h : F.cols.Nodup) : (load F).2.qs.Pairwise (· < ·) := by
  have hn : (F.cols.insertionSort (· ≤ ·)).Nodup := (List.perm_insertionSort _ _).nodup_iff.2 h
  have hs := List.pairwise_insertionSort (fun a b : ℝ => a ≤ b) F.cols
  exact (hs.and hn).imp (fun h => lt_of_le_of_ne h.1 h.2)

lemma filter_pos (cols : List ℝ) (hn : cols.Nodup) (l : ℝ) (hl : l ∈ cols) :
    (List.range cols.length).filter (fun j => decide (cols[j]? = some l)) = [cols.idxOf l] := by
  have hlt := List.idxOf_lt_length_of_mem hl
  have : ∀ j ∈ List.range cols.length, (decide (cols[j]? = some l)) = (j == cols.idxOf l) := by
    intro j hj
    rw [List.mem_range] at hj
    rw [List.getElem?_eq_getElem hj]
    rw [Bool.eq_iff_iff]
    simp only [Option.some.injEq, decide_eq_true_eq, beq_iff_eq]
    constructor
    · intro h; rw [← h, List.Nodup.idxOf_getElem hn]
    · rintro rfl; exact List.getElem_idxOf hlt
  rw [List.filter_congr this]
  rw [List.filter_beq, List.count_eq_one_of_mem List.nodup_range (by simpa using hlt)]
  rfl

lemma positions_eq (cols : List ℝ) (hn : cols.Nodup) : ∀ labels : List ℝ, (∀ l ∈ labels, l ∈ cols) → positions cols labels = labels.map (fun l => cols.idxOf l)
  | [], _ => rfl
  | l :: ls, h => by
      have ih := positions_eq cols hn ls (fun x hx => h x (by simp [hx]))
      unfold positions at ih ⊢
      rw [List.flatMap_cons, filter_pos cols hn l (h l (by simp)), ih]
      rfl

lemma gridOk_of (F : Frame) (h : Proper F) : gridOk (load F).2 = true := by
  unfold gridOk
  simp only [Bool.and_eq_true, decide_eq_true_eq, List.all_eq_true]
  refine ⟨⟨⟨ws_sorted F h.1, qs_sorted F h.2.1⟩, ?_⟩, ?_⟩
  · simp [load]
  · intro r hr
    simp only [load, List.mem_map] at hr
    obtain ⟨x, _, rfl⟩ := hr
    rw [List.length_map]
    show (positions F.cols (load F).2.qs).length = _
    rw [positions_eq F.cols h.2.1 _ (fun l hl => (qs_mem F l).1 hl), List.length_map]

/-- position of a cell in the arrays -/
lemma cell_at (F : Frame) (h : Proper F) (w c v : ℝ) (hc : Cell2 F w c v) :
    ∃ i j : ℕ, i < (load F).2.ws.length ∧ j < (load F).2.qs.length ∧ (load F).2.ws.getD i 0 = w ∧ (load F).2.qs.getD j 0 = c ∧
      ((load F).2.val.getD i []).getD j 0 = v := by
  obtain ⟨r, hr, rfl, k, hk, hv⟩ := hc
  have hr' : r ∈ (sortFrame F).rows := (rows_perm F).mem_iff.2 hr
  obtain ⟨i, hi, hie⟩ := List.getElem_of_mem hr'
  have hcm : c ∈ F.cols := List.mem_of_getElem? hk
  have hcq := (qs_mem F c).2 hcm
  obtain ⟨j, hj, hje⟩ := List.getElem_of_mem hcq
  have hkl : k < F.cols.length := by
    by_contra hcon
    rw [List.getElem?_eq_none (by omega)] at hk; simp at hk
  have hidx : F.cols.idxOf c = k := by
    rw [List.getElem?_eq_getElem hkl] at hk
    simp only [Option.some.injEq] at hk
    rw [← hk, List.Nodup.idxOf_getElem h.2.1]
  refine ⟨i, j, by simpa [load] using hi, hj, ?_, ?_, ?_⟩
  · simp [load, List.getD_eq_getElem?_getD, List.getElem?_eq_getElem hi, hie]
  · rw [List.getD_eq_getElem?_getD, List.getElem?_eq_getElem hj, hje]; rfl
  · simp only [load, List.getD_eq_getElem?_getD, List.getElem?_map, List.getElem?_eq_getElem hi, hie, Option.map_some, Option.getD_some]
    rw [positions_eq F.cols h.2.1 _ (fun l hl => (qs_mem F l).1 (by exact hl)), List.getElem?_map]
    have : (F.cols.insertionSort (fun x1 x2 => x1 ≤ x2))[j]? = some c := by
      have := List.getElem?_eq_getElem hj
      rw [hje] at this
      exact this
    rw [this]
    simp [hidx, hv]

lemma covered_iff (F : Frame) (h : Proper F) (w q : ℝ) : (inside (load F).2.ws w = true ∧ inside (load F).2.qs q = true) ↔ Covered F w q := by
  rw [inside_range _ (ws_sorted F h.1), inside_range _ (qs_sorted F h.2.1)]
  unfold Covered
  simp only [ws_mem, qs_mem]

lemma look_of (F : Frame) (h : Proper F) (w q : ℝ) (hc : Covered F w q) : look F w q = some (bilin (load F).2 w q) := by
  unfold look interpn
  have := (covered_iff F h w q).2 hc
  simp only [gridOk_of F h, this.1, this.2, Bool.and_self, if_true]

/-- **C73 (range).** A proper table has a value exactly within the ranges of its wind speeds and columns; elsewhere the look-up raises. -/
theorem C73_range (F : Frame) (h : Proper F) (w q : ℝ) : (look F w q).isSome ↔ Covered F w q := by
  constructor
  · intro hs
    by_contra hc
    unfold look interpn at hs
    rw [← covered_iff F h] at hc
    dsimp only at hs
    split_ifs at hs with hif
    · simp only [Bool.and_eq_true] at hif
      exact hc ⟨hif.1.2, hif.2⟩
    · simp at hs
  · intro hc; rw [look_of F h w q hc]; rfl

/-- **C73 (cells).** At the wind speeds and columns of the table the value is the one in the table. -/
theorem C73_cells (F : Frame) (h : Proper F) (w c v : ℝ) (hc : Cell2 F w c v) : look F w c = some v := by
  have hcov : Covered F w c := by
    obtain ⟨r, hr, rfl, j, hj, _⟩ := hc
    have h1 : r.1 ∈ F.rows.map Prod.fst := List.mem_map_of_mem hr
    have h2 := List.mem_of_getElem? hj
    exact ⟨⟨⟨_, h1, le_rfl⟩, ⟨_, h1, le_rfl⟩⟩, ⟨_, h2, le_rfl⟩, ⟨_, h2, le_rfl⟩⟩
  rw [look_of F h w c hcov]
  obtain ⟨i, j, hi, hj, hw, hq, hv⟩ := cell_at F h w c v hc
  rw [← hw, ← hq]
  unfold bilin
  rw [along_node _ (ws_sorted F h.1) i hi, along_node _ (qs_sorted F h.2.1) j hj, hv]
lemma cell_nb (g : List ℝ) (hs : g.Pairwise (· < ·)) (a b p : ℝ) (ha : a ∈ g) (hb : b ∈ g) (hab : a < b) (hno : ∀ x ∈ g, ¬ (a < x ∧ x < b))
    (h1 : a ≤ p) (h2 : p ≤ b) : ∃ i : ℕ, i + 1 < g.length ∧ g.getD i 0 = a ∧ g.getD (i + 1) 0 = b ∧ Cell g p i (i + 1) ((p - a) / (b - a)) := by
  obtain ⟨i, hi, hie⟩ := List.getElem_of_mem ha
  obtain ⟨k, hk, hke⟩ := List.getElem_of_mem hb
  have hmono := List.pairwise_iff_getElem.1 hs
  have hik : i < k := by
    by_contra hcon
    rcases Nat.lt_or_eq_of_le (Nat.not_lt.1 hcon) with hlt | heq
    · have := hmono k i hk hi hlt
      rw [hie, hke] at this; linarith
    · subst heq; rw [hie] at hke; linarith
  have hk1 : k = i + 1 := by
    by_contra hcon
    have hlt1 : i + 1 < k := by omega
    have h3 := hmono i (i + 1) hi (by omega) (by omega)
    have h4 := hmono (i + 1) k (by omega) hk hlt1
    rw [hie] at h3; rw [hke] at h4
    exact hno _ (List.getElem_mem _) ⟨h3, h4⟩
  subst hk1
  have e1 : g.getD i 0 = a := by rw [List.getD_eq_getElem _ _ hi, hie]
  have e2 : g.getD (i + 1) 0 = b := by rw [List.getD_eq_getElem _ _ hk, hke]
  refine ⟨i, hk, e1, e2, Or.inr ⟨rfl, hk, ?_, ?_, ?_⟩⟩
  · rw [e1]; exact h1
  · rw [e2]; exact h2
  · rw [e1, e2]

lemma range_some (F : Frame) (h : Proper F) (w q a : ℝ) (ha : look F w q = some a) : Covered F w q ∧ a = bilin (load F).2 w q := by
  have hc := (C73_range F h w q).1 (by rw [ha]; rfl)
  rw [look_of F h w q hc] at ha
  exact ⟨hc, (Option.some.inj ha).symm⟩

/-- **C73 (between rows).** Between two neighbouring wind speeds of the table, at any value of the second quantity, the value lies on the
line between the values at these wind speeds. -/
theorem C73_between_rows (F : Frame) (h : Proper F) (w1 w2 w q a b : ℝ) (hw1 : w1 ∈ F.rows.map Prod.fst) (hw2 : w2 ∈ F.rows.map Prod.fst) (hlt : w1 < w2)
    (hno : ∀ x ∈ F.rows.map Prod.fst, ¬ (w1 < x ∧ x < w2)) (h1 : w1 ≤ w) (h2 : w ≤ w2) (ha : look F w1 q = some a) (hb : look F w2 q = some b) :
    look F w q = some (a + (b - a) * ((w - w1) / (w2 - w1))) := by
  obtain ⟨ca, rfl⟩ := range_some F h _ _ _ ha
  obtain ⟨cb, rfl⟩ := range_some F h _ _ _ hb
  have hc : Covered F w q := ⟨⟨⟨w1, hw1, h1⟩, ⟨w2, hw2, h2⟩⟩, ca.2⟩
  rw [look_of F h w q hc]
  have hs := ws_sorted F h.1
  obtain ⟨i, hi, e1, e2, hcell⟩ := cell_nb _ hs w1 w2 w ((ws_mem F _).2 hw1) ((ws_mem F _).2 hw2) hlt (fun x hx => hno x ((ws_mem F x).1 hx)) h1 h2
  congr 1
  have key : ∀ f : ℕ → ℝ, along (load F).2.ws w f = along (load F).2.ws w1 f + (along (load F).2.ws w2 f - along (load F).2.ws w1 f) * ((w - w1) / (w2 - w1)) := by
    intro f
    have n1 := along_node _ hs i (by omega) f
    have n2 := along_node _ hs (i + 1) hi f
    rw [e1] at n1; rw [e2] at n2
    rw [along_cell _ hs w i (i + 1) _ hcell, n1, n2]
    unfold mix; ring
  exact key _

/-- **C73 (between columns).** The same between two neighbouring columns. -/
theorem C73_between_columns (F : Frame) (h : Proper F) (q1 q2 w q a b : ℝ) (hw1 : q1 ∈ F.cols) (hw2 : q2 ∈ F.cols) (hlt : q1 < q2)
    (hno : ∀ x ∈ F.cols, ¬ (q1 < x ∧ x < q2)) (h1 : q1 ≤ q) (h2 : q ≤ q2) (ha : look F w q1 = some a) (hb : look F w q2 = some b) :
    look F w q = some (a + (b - a) * ((q - q1) / (q2 - q1))) := by
  obtain ⟨ca, rfl⟩ := range_some F h _ _ _ ha
  obtain ⟨cb, rfl⟩ := range_some F h _ _ _ hb
  have hc : Covered F w q := ⟨ca.1, ⟨q1, hw1, h1⟩, ⟨q2, hw2, h2⟩⟩
  rw [look_of F h w q hc]
  have hs := qs_sorted F h.2.1
  obtain ⟨i, hi, e1, e2, hcell⟩ := cell_nb _ hs q1 q2 q ((qs_mem F _).2 hw1) ((qs_mem F _).2 hw2) hlt (fun x hx => hno x ((qs_mem F x).1 hx)) h1 h2
  congr 1
  unfold bilin
  have key : ∀ f : ℕ → ℝ, along (load F).2.qs q f = mix ((q - q1) / (q2 - q1)) (along (load F).2.qs q1 f) (along (load F).2.qs q2 f) := by
    intro f
    have n1 := along_node _ hs i (by omega) f
    have n2 := along_node _ hs (i + 1) hi f
    rw [e1] at n1; rw [e2] at n2
    rw [along_cell _ hs q i (i + 1) _ hcell, n1, n2]
  simp only [key]
  rw [along_mix]
  unfold mix; ring

lemma val_cell (F : Frame) (h : Proper F) (i j : ℕ) (hi : i < (load F).2.ws.length) (hj : j < (load F).2.qs.length) :
    Cell2 F ((load F).2.ws.getD i 0) ((load F).2.qs.getD j 0) (((load F).2.val.getD i []).getD j 0) := by
  have hw : (load F).2.ws.getD i 0 ∈ F.rows.map Prod.fst := by
    rw [← ws_mem, List.getD_eq_getElem _ _ hi]; exact List.getElem_mem _
  have hq : (load F).2.qs.getD j 0 ∈ F.cols := by
    rw [← qs_mem, List.getD_eq_getElem _ _ hj]; exact List.getElem_mem _
  obtain ⟨r, hr, hrw⟩ := List.mem_map.1 hw
  obtain ⟨k, hk, hke⟩ := List.getElem_of_mem hq
  have hkr : k < r.2.length := by rw [h.2.2 r hr]; exact hk
  have hc : Cell2 F ((load F).2.ws.getD i 0) ((load F).2.qs.getD j 0) r.2[k] :=
    ⟨r, hr, hrw, k, by rw [List.getElem?_eq_getElem hk, hke], List.getElem?_eq_getElem hkr⟩
  obtain ⟨i', j', hi', hj', e1, e2, e3⟩ := cell_at F h _ _ _ hc
  have inj : ∀ (g : List ℝ), g.Pairwise (· < ·) → ∀ a b : ℕ, a < g.length → b < g.length → g.getD a 0 = g.getD b 0 → a = b := by
    intro g hg a b ha hb hab
    rw [List.getD_eq_getElem _ _ ha, List.getD_eq_getElem _ _ hb] at hab
    exact (List.Nodup.getElem_inj_iff (hg.imp (fun h => h.ne))).1 hab
  rw [inj _ (ws_sorted F h.1) _ _ hi' hi e1, inj _ (qs_sorted F h.2.1) _ _ hj' hj e2] at e3
  rw [e3]; exact hc

/-- **C73 (bounds).** Looked up values stay between the smallest and the largest value of the table. -/
theorem C73_bounds (F : Frame) (h : Proper F) (lo hi : ℝ) (hb : ∀ w c v, Cell2 F w c v → lo ≤ v ∧ v ≤ hi) (w q v : ℝ) (hv : look F w q = some v) :
    lo ≤ v ∧ v ≤ hi := by
  obtain ⟨hc, rfl⟩ := range_some F h _ _ _ hv
  obtain ⟨h1, h2⟩ := (covered_iff F h w q).2 hc
  have ne1 : (load F).2.ws ≠ [] := by intro hn; rw [hn] at h1; simp [inside] at h1
  have ne2 : (load F).2.qs ≠ [] := by intro hn; rw [hn] at h2; simp [inside] at h2
  obtain ⟨i, j, t, ht⟩ := cell_exists _ w h1 ne1
  obtain ⟨i', j', t', ht'⟩ := cell_exists _ q h2 ne2
  obtain ⟨a1, a2, a3, a4⟩ := cell_t _ (ws_sorted F h.1) _ _ _ _ ht
  obtain ⟨b1, b2, b3, b4⟩ := cell_t _ (qs_sorted F h.2.1) _ _ _ _ ht'
  unfold bilin
  rw [along_cell _ (ws_sorted F h.1) _ _ _ _ ht]
  rw [along_cell _ (qs_sorted F h.2.1) _ _ _ _ ht', along_cell _ (qs_sorted F h.2.1) _ _ _ _ ht']
  exact mix_bounds _ _ _ _ _ a1 a2 (mix_bounds _ _ _ _ _ b1 b2 (hb _ _ _ (val_cell F h _ _ a3 b3)) (hb _ _ _ (val_cell F h _ _ a3 b4)))
    (mix_bounds _ _ _ _ _ b1 b2 (hb _ _ _ (val_cell F h _ _ a4 b3)) (hb _ _ _ (val_cell F h _ _ a4 b4)))

/-- **C73 (order).** The order of rows and columns in the table is irrelevant: two tables with the same wind speeds, columns and cells give
the same values and fail at the same points. -/
theorem C73_order (F G : Frame) (h : Proper F) (h' : Proper G) (hw : ∀ w, w ∈ F.rows.map Prod.fst ↔ w ∈ G.rows.map Prod.fst)
    (hq : ∀ c, c ∈ F.cols ↔ c ∈ G.cols) (hc : ∀ w c v, Cell2 F w c v → Cell2 G w c v) (w q : ℝ) : look F w q = look G w q := by
  have e1 : (load F).2.ws = (load G).2.ws := sorted_eq_of_mem _ _ (ws_sorted F h.1) (ws_sorted G h'.1) (fun x => by rw [ws_mem, ws_mem, hw])
  have e2 : (load F).2.qs = (load G).2.qs := sorted_eq_of_mem _ _ (qs_sorted F h.2.1) (qs_sorted G h'.2.1) (fun x => by rw [qs_mem, qs_mem, hq])
  have e3 : bilin (load F).2 w q = bilin (load G).2 w q := by
    unfold bilin
    rw [← e1, ← e2]
    unfold along
    apply Finset.sum_congr rfl
    intro i hi
    congr 1
    apply Finset.sum_congr rfl
    intro j hj
    congr 1
    rw [Finset.mem_range] at hi hj
    have hcell := hc _ _ _ (val_cell F h i j hi hj)
    obtain ⟨i', j', hi', hj', a1, a2, a3⟩ := cell_at G h' _ _ _ hcell
    have inj : ∀ (g : List ℝ), g.Pairwise (· < ·) → ∀ a b : ℕ, a < g.length → b < g.length → g.getD a 0 = g.getD b 0 → a = b := by
      intro g hg a b ha hb hab
      rw [List.getD_eq_getElem _ _ ha, List.getD_eq_getElem _ _ hb] at hab
      exact (List.Nodup.getElem_inj_iff (hg.imp (fun h => h.ne))).1 hab
    rw [e1] at a1 hi; rw [e2] at a2 hj
    rw [inj _ (ws_sorted G h'.1) _ _ hi' hi a1, inj _ (qs_sorted G h'.2.1) _ _ hj' hj a2] at a3
    exact a3.symm
  unfold look interpn
  dsimp only
  rw [gridOk_of F h, gridOk_of G h', e1, e2, e3]

/-- **C73 (repeated labels).** With a wind speed or a column that occurs twice every look-up raises. -/
theorem C73_repeated (F : Frame) (h : ¬ (F.rows.map Prod.fst).Nodup ∨ ¬ F.cols.Nodup) (w q : ℝ) : look F w q = none := by
  have : gridOk (load F).2 = false := by
    by_contra hcon
    rw [Bool.not_eq_false] at hcon
    unfold gridOk at hcon
    simp only [Bool.and_eq_true, decide_eq_true_eq] at hcon
    have n1 : (load F).2.ws.Nodup := hcon.1.1.1.imp (fun h => h.ne)
    have n2 : (load F).2.qs.Nodup := hcon.1.1.2.imp (fun h => h.ne)
    rcases h with h | h
    · exact h (((rows_perm F).map Prod.fst).nodup_iff.1 n1)
    · exact h ((List.perm_insertionSort (· ≤ ·) F.cols).nodup_iff.1 n2)
  unfold look interpn
  dsimp only
  rw [this]; simp

/-- **C73 (finding).** Loading sorts the rows of the user's own table; it is unchanged only if they are sorted already. -/
theorem C73_user_table_sorted (F : Frame) (h : (F.rows.map Prod.fst).Nodup) :
    (load F).1 = F ↔ (F.rows.map Prod.fst).Pairwise (· < ·) := by
  constructor
  · intro he
    have := ws_sorted F h
    have e : (load F).2.ws = (load F).1.rows.map Prod.fst := rfl
    rw [e, he] at this
    exact this
  · intro hs
    show sortFrame F = F
    have : F.rows.insertionSort (fun a b => a.1 ≤ b.1) = F.rows := by
      apply List.Pairwise.insertionSort_eq
      rw [List.pairwise_map] at hs
      exact hs.imp (fun h => h.le)
    unfold sortFrame
    rw [this]

/-- loading twice is the same as loading once -/
theorem C73_load_again (F : Frame) : load (load F).1 = load F := by
  have : sortFrame (sortFrame F) = sortFrame F := by
    have := List.Pairwise.insertionSort_eq (sorted_rows F)
    unfold sortFrame at this ⊢
    rw [this]
  show ((sortFrame (sortFrame F), _) : Frame × Tab) = _
  simp only [load, this]
  rfl


/-! ### Calculation -/

/-- the entry is selected and its wind speed is within the range of the power table -/
def Hit {E : Type} (TP : Tab) (sel : E → Bool) (fd : Fd E) (v : String) (e : E) : Prop :=
  sel e = true ∧ ∃ w, (fd v).bind (fun a => a e) = some w ∧ inside TP.ws w = true

/-- all the look-ups of one part work -/
def Good {E : Type} (es : List E) (sel : E → Bool) (q : String) (rho : Option ℝ) (range : List ℝ) (T : Tab) (c : Part) (fd : Fd E) : Prop :=
  (∃ e ∈ es, sel e = true ∧ ∃ w, (fd c.wsSel).bind (fun a => a e) = some w ∧ inside range w = true) →
    (rho.isSome → ∀ e ∈ es, sel e = true → ∃ w, (fd c.wsSel).bind (fun a => a e) = some w ∧ inside range w = true) ∧
    ∀ e ∈ es, sel e = true → (∃ w, (fd c.wsSel).bind (fun a => a e) = some w ∧ inside range w = true) →
      (interpn T (speedAt rho c.eRho c.p c.eYaw fd c.wsQ e, (fd q).bind (fun a => a e))).isSome ∧
      (∀ y, fd "YAWM" = some y → c.p.isSome → (y e).isSome)

/-- what one part writes -/
def outcome {E : Type} (sel : E → Bool) (q : String) (rho : Option ℝ) (range : List ℝ) (T : Tab) (c : Part) (fd : Fd E) (e : E) : Option ℝ :=
  if sel e = true then
    (if ∃ w, (fd c.wsSel).bind (fun a => a e) = some w ∧ inside range w = true then
      interpn T (speedAt rho c.eRho c.p c.eYaw fd c.wsQ e, (fd q).bind (fun a => a e)) else some 0)
  else (fd c.out).bind (fun a => a e)

lemma mapM_opt {α β : Type} (g : α → Option β) : ∀ l : List α, (∀ a ∈ l, (g a).isSome) → ∃ vs, l.mapM g = some vs ∧ vs.map some = l.map g
  | [], _ => ⟨[], rfl, rfl⟩
  | a :: l, h => by
      obtain ⟨vs, h1, h2⟩ := mapM_opt g l (fun x hx => h x (by simp [hx]))
      obtain ⟨b, hb⟩ := Option.isSome_iff_exists.1 (h a (by simp))
      exact ⟨b :: vs, by rw [List.mapM_cons, hb, h1]; rfl, by simp [hb, h2]⟩

lemma mapM_opt_none {α β : Type} (g : α → Option β) : ∀ l : List α, (∃ a ∈ l, g a = none) → l.mapM g = none := Foxes.Props.Lookup.mapM_none g

lemma within_iff (range : List ℝ) (lo hi : ℝ) (h1 : range.head? = some lo) (h2 : range.getLast? = some hi) (x : Option ℝ) :
    within lo hi x = true ↔ ∃ w, x = some w ∧ inside range w = true := by
  cases x with
  | none => simp [within]
  | some w => simp [within, inside, h1, h2]

lemma zip_maps {α β γ : Type} (f : α → β) (g : α → γ) (l : List α) : List.zip (l.map f) (l.map g) = l.map (fun a => (f a, g a)) := by
  induction l with
  | nil => rfl
  | cons a l ih => simp [ih]

lemma zipWith_maps {α β γ δ : Type} (h : β → γ → δ) (f : α → β) (g : α → γ) (l : List α) :
    List.zipWith h (l.map f) (l.map g) = l.map (fun a => h (f a) (g a)) := by
  induction l with
  | nil => rfl
  | cons a l ih => simp [ih]

lemma put_self {E : Type} (fd : Fd E) (v : String) (a : E → Option ℝ) (h : fd v = some a) : put fd v a = fd := by
  funext u; unfold put; split_ifs with hu
  · rw [hu, h]
  · rfl

lemma filter_len {α : Type} (p q : α → Bool) (l : List α) (hpq : ∀ a ∈ l, p a = true → q a = true) :
    (l.filter p).length ≤ (l.filter q).length ∧ ((l.filter p).length = (l.filter q).length ↔ ∀ a ∈ l, q a = true → p a = true) := by
  induction l with
  | nil => simp
  | cons a l ih =>
      obtain ⟨i1, i2⟩ := ih (fun x hx => hpq x (by simp [hx]))
      have ha := hpq a (by simp)
      cases hp : p a with
      | true =>
          have hq := ha hp
          simp only [List.filter_cons, hp, hq, if_true, List.length_cons, List.forall_mem_cons, forall_true_left]
          exact ⟨by omega, by rw [← i2]; simp⟩
      | false =>
          cases hq : q a with
          | true =>
              simp only [List.filter_cons, hp, hq, if_true, Bool.false_eq_true, if_false, List.length_cons, List.forall_mem_cons, forall_true_left]
              exact ⟨by omega, by simp; omega⟩
          | false =>
              simp only [List.filter_cons, hp, hq, Bool.false_eq_true, if_false, List.forall_mem_cons, false_imp_iff, true_and]
              exact ⟨i1, i2⟩

lemma imul_maps {E : Type} (es : List E) (inR sel : E → Bool) (hsub : ∀ e, inR e = true → sel e = true) (hne : ∃ e ∈ es, inR e = true) (f g : E → Option ℝ) :
    imul ((es.filter inR).map f) ((es.filter sel).map g) =
      if ∀ e ∈ es, sel e = true → inR e = true then some ((es.filter inR).map (fun e => mul (f e) (g e))) else none := by
  obtain ⟨l1, l2⟩ := filter_len inR sel es (fun a _ h => hsub a h)
  unfold imul
  simp only [List.length_map]
  by_cases hall : ∀ e ∈ es, sel e = true → inR e = true
  · rw [if_pos (l2.2 hall), if_pos hall]
    have : es.filter sel = es.filter inR := List.filter_congr (fun a ha => by
      rw [Bool.eq_iff_iff]; exact ⟨hall a ha, hsub a⟩)
    rw [this, zipWith_maps]
  · rw [if_neg (fun h => hall (l2.1 h)), if_neg hall]
    have hlt : (es.filter inR).length < (es.filter sel).length := lt_of_le_of_ne l1 (fun h => hall (l2.1 h))
    have hpos : 0 < (es.filter inR).length := by
      obtain ⟨e, he, hr⟩ := hne
      exact List.length_pos_of_mem (List.mem_filter.2 ⟨he, hr⟩)
    match hl : (es.filter sel).map g with
    | [] => rfl
    | [y] => have := congrArg List.length hl; simp at this; omega
    | _ :: _ :: _ => rfl

/-- the variables one part reads are not the one it writes -/
def Apart (q : String) (c : Part) : Prop := c.wsSel ≠ c.out ∧ c.wsQ ≠ c.out ∧ q ≠ c.out ∧ "RHO" ≠ c.out ∧ "YAWM" ≠ c.out

/-- the variables one part needs are there -/
def Has {E : Type} (q : String) (rho : Option ℝ) (c : Part) (fd : Fd E) : Prop :=
  (fd c.wsSel).isSome ∧ (fd c.wsQ).isSome ∧ (fd q).isSome ∧ (fd c.out).isSome ∧ (rho.isSome → (fd "RHO").isSome)

lemma put_ne {E : Type} (fd : Fd E) (u v : String) (a : E → Option ℝ) (h : u ≠ v) : put fd v a u = fd u := by simp [put, h]

lemma put_same {E : Type} (fd : Fd E) (v : String) (a : E → Option ℝ) : put fd v a v = some a := by simp [put]

lemma put_put {E : Type} (fd : Fd E) (v : String) (a b : E → Option ℝ) : put (put fd v a) v b = put fd v b := by
  funext u; unfold put; split_ifs <;> rfl

lemma step_eq {E : Type} (es : List E) (hes : ∀ e : E, e ∈ es) (sel : E → Bool) (q : String) (rho : Option ℝ) (range : List ℝ)
    (hr : range ≠ []) (T : Tab) (c : Part) (fd : Fd E) (hap : Apart q c) (hh : Has q rho c fd) :
    step es sel q rho range T c fd = if Good es sel q rho range T c fd then some (put fd c.out (outcome sel q rho range T c fd)) else none := by
  obtain ⟨ap1, ap2, ap3, ap4, ap5⟩ := hap
  obtain ⟨h1, h2, h3, h4, h5⟩ := hh
  obtain ⟨ws, hws⟩ := Option.isSome_iff_exists.1 h1
  obtain ⟨wq, hwq⟩ := Option.isSome_iff_exists.1 h2
  obtain ⟨qv, hqv⟩ := Option.isSome_iff_exists.1 h3
  obtain ⟨a, ha⟩ := Option.isSome_iff_exists.1 h4
  obtain ⟨lo, hlo⟩ : ∃ lo, range.head? = some lo := by cases range with
    | nil => exact absurd rfl hr
    | cons x l => exact ⟨x, rfl⟩
  obtain ⟨hi, hhi⟩ : ∃ hi, range.getLast? = some hi := ⟨range.getLast hr, List.getLast?_eq_getLast_of_ne_nil hr⟩
  set inR : E → Bool := fun e => sel e && within lo hi (ws e) with hinR
  have hw : ∀ e, (∃ w, (fd c.wsSel).bind (fun a => a e) = some w ∧ inside range w = true) ↔ within lo hi (ws e) = true := by
    intro e; rw [hws, within_iff range lo hi hlo hhi]; rfl
  have hw' : ∀ e, (sel e = true ∧ ∃ w, (fd c.wsSel).bind (fun a => a e) = some w ∧ inside range w = true) ↔ inR e = true := by
    intro e; rw [hw, hinR]; simp
  -- the first assignment
  set b : E → Option ℝ := fun e => if (sel e && !inR e) = true then some 0 else a e with hb
  have hfd1 : zeroOut es (fun e => sel e && !inR e) c.out fd = some (put fd c.out b) := by
    unfold zeroOut
    by_cases hany : es.any (fun e => sel e && !inR e) = true
    · rw [if_pos hany, ha]; rfl
    · rw [if_neg hany]
      have : b = a := by
        funext e
        simp only [hb]
        rw [if_neg]
        intro hcon
        exact hany (List.any_eq_true.2 ⟨e, hes e, hcon⟩)
      rw [this, put_self fd _ _ ha]
  have hstep : step es sel q rho range T c fd = if es.any inR then lookUp es sel inR q rho T c (put fd c.out b) else some (put fd c.out b) := by
    unfold step
    rw [hws, hlo, hhi]
    show (zeroOut es (fun e => sel e && !inR e) c.out fd).bind _ = _
    rw [hfd1]; rfl
  rw [hstep]
  have hF : ∀ u, u ≠ c.out → put fd c.out b u = fd u := fun u hu => put_ne fd u _ b hu
  by_cases hany : es.any inR = true
  · rw [if_pos hany]
    have hne : ∃ e ∈ es, inR e = true := List.any_eq_true.1 hany
    unfold lookUp
    simp only [hF _ ap2, hF _ ap3, put_same, hwq, hqv, put_put, Option.bind_eq_bind, Option.bind_some]
    -- density
    have hsp' : corrRho es sel rho c.eRho (put fd c.out b) ((es.filter inR).map wq) =
        if (rho.isSome → ∀ e ∈ es, sel e = true → inR e = true) then some ((es.filter inR).map (speedRho rho c.eRho fd c.wsQ)) else none := by
      unfold corrRho
      cases rho with
      | none =>
          have : speedRho none c.eRho fd c.wsQ = wq := by funext e; simp [speedRho, hwq]
          rw [this]; simp
      | some r =>
          obtain ⟨rv, hrv⟩ := Option.isSome_iff_exists.1 (h5 rfl)
          simp only [hF _ ap4, hrv, Option.bind_some, Option.isSome_some, forall_true_left]
          rw [imul_maps es inR sel (fun e he => by simp [hinR] at he; exact he.1) hne]
          have : speedRho (some r) c.eRho fd c.wsQ = fun e => mul (wq e) (rhoFactor r c.eRho (rv e)) := by funext e; simp [speedRho, hwq, hrv]
          rw [this]
    by_cases hall : (rho.isSome → ∀ e ∈ es, sel e = true → inR e = true)
    swap
    · rw [if_neg hall] at hsp'
      rw [if_neg]
      · rw [hsp']; rfl
      · intro hg
        obtain ⟨g1, -⟩ := hg (by obtain ⟨e, he, hin⟩ := hne; exact ⟨e, he, (hw' e).2 hin⟩)
        exact hall (fun hs e he hsel => (hw' e).1 ⟨hsel, g1 hs e he hsel⟩)
    rw [if_pos hall] at hsp'
    rw [hsp']
    simp only [Option.bind_some]
    -- yaw
    have hyaw : corrYaw (es.filter inR) c.p c.eYaw (put fd c.out b) ((es.filter inR).map (speedRho rho c.eRho fd c.wsQ)) =
        if (∀ e ∈ es, inR e = true → ∀ y, fd "YAWM" = some y → c.p.isSome → (y e).isSome) then
          some ((es.filter inR).map (fun e => speedAt rho c.eRho c.p c.eYaw fd c.wsQ e)) else none := by
      unfold corrYaw
      simp only [speedAt, hF _ ap5]
      cases hy : fd "YAWM" with
      | none => simp
      | some y =>
          cases hp : c.p with
          | none => simp
          | some p =>
              simp only [Option.some.injEq, Option.isSome_some, forall_true_left, forall_eq']
              by_cases hyy : ∀ e ∈ es, inR e = true → (y e).isSome = true
              · rw [if_pos hyy]
                obtain ⟨f, f1, f2⟩ := mapM_opt y (es.filter inR) (fun e he => by rw [List.mem_filter] at he; exact hyy e he.1 he.2)
                rw [f1]
                simp only [Option.map_some]
                have : f.map (yawFactor p c.eYaw) = (es.filter inR).map (fun e => (y e).bind (yawFactor p c.eYaw)) := by
                  have e1 : f.map (yawFactor p c.eYaw) = (f.map some).map (fun o => o.bind (yawFactor p c.eYaw)) := by
                    rw [List.map_map]; rfl
                  rw [e1, f2, List.map_map]; rfl
                rw [this, zipWith_maps]
              · rw [if_neg hyy]
                rw [mapM_opt_none]
                · rfl
                · push Not at hyy
                  obtain ⟨e, he, hi', hn⟩ := hyy
                  exact ⟨e, List.mem_filter.2 ⟨he, hi'⟩, by simpa using hn⟩
    by_cases hyok : ∀ e ∈ es, inR e = true → ∀ y, fd "YAWM" = some y → c.p.isSome → (y e).isSome
    swap
    · rw [if_neg hyok] at hyaw
      rw [if_neg]
      · rw [hyaw]; rfl
      · intro hg
        obtain ⟨-, g2⟩ := hg (by obtain ⟨e, he, hin⟩ := hne; exact ⟨e, he, (hw' e).2 hin⟩)
        exact hyok (fun e he hin => (g2 e he ((hw' e).2 hin).1 ((hw' e).2 hin).2).2)
    rw [if_pos hyok] at hyaw
    rw [hyaw]
    simp only [Option.bind_some, zip_maps, List.mapM_map]
    by_cases hlk : ∀ e ∈ es, inR e = true → (interpn T (speedAt rho c.eRho c.p c.eYaw fd c.wsQ e, qv e)).isSome
    · obtain ⟨vals, v1, v2⟩ := mapM_opt (interpn T ∘ fun e => (speedAt rho c.eRho c.p c.eYaw fd c.wsQ e, qv e)) (es.filter inR)
        (fun e he => by rw [List.mem_filter] at he; exact hlk e he.1 he.2)
      have hg : Good es sel q rho range T c fd := by
        intro _
        refine ⟨fun hs e he hsel => ((hw' e).2 (hall hs e he hsel)).2, fun e he hsel hex => ⟨?_, hyok e he ((hw' e).1 ⟨hsel, hex⟩)⟩⟩
        rw [hqv]; exact hlk e he ((hw' e).1 ⟨hsel, hex⟩)
      rw [if_pos hg, v1]
      simp only [Option.bind_some]
      show some _ = some _
      congr 2
      funext e
      simp only [outcome]
      by_cases hin : inR e = true
      · rw [if_pos hin, if_pos ((hw' e).2 hin).1, if_pos ((hw' e).2 hin).2, hqv]
        have hm : e ∈ es.filter inR := List.mem_filter.2 ⟨hes e, hin⟩
        have hlt := List.idxOf_lt_length_of_mem hm
        have := congrArg (fun l => l[(es.filter inR).idxOf e]?) v2
        simp only [List.getElem?_map, List.getElem?_eq_getElem hlt, List.getElem_idxOf, Option.map_some] at this
        have hs : (interpn T (speedAt rho c.eRho c.p c.eYaw fd c.wsQ e, qv e)).isSome := hlk e (hes e) hin
        obtain ⟨x, hx⟩ := Option.isSome_iff_exists.1 hs
        simp only [Function.comp, hx] at this
        show _ = interpn T (_, qv e)
        rw [hx]
        cases hv : vals[(es.filter inR).idxOf e]? with
        | none => rw [hv] at this; simp at this
        | some z => rw [hv] at this; simpa using this
      · rw [if_neg hin]
        by_cases hs : sel e = true
        · rw [if_pos hs, if_neg (fun hex => hin ((hw' e).1 ⟨hs, hex⟩))]
          simp [hb, hs, hin]
        · rw [if_neg hs, ha]
          simp [hb, hs]
    · rw [if_neg]
      · rw [mapM_opt_none]
        · rfl
        · push Not at hlk
          obtain ⟨e, he, hi', hn⟩ := hlk
          exact ⟨e, List.mem_filter.2 ⟨he, hi'⟩, by simpa using hn⟩
      · intro hg
        obtain ⟨-, g2⟩ := hg (by obtain ⟨e, he, hin⟩ := hne; exact ⟨e, he, (hw' e).2 hin⟩)
        refine hlk (fun e he hin => ?_)
        have := (g2 e he ((hw' e).2 hin).1 ((hw' e).2 hin).2).1
        rw [hqv] at this; exact this
  · rw [if_neg hany]
    have hno : ∀ e, ¬ inR e = true := fun e h => hany (List.any_eq_true.2 ⟨e, hes e, h⟩)
    have hg : Good es sel q rho range T c fd := by
      rintro ⟨e, he, hs, hex⟩
      exact absurd ((hw' e).1 ⟨hs, hex⟩) (hno e)
    rw [if_pos hg]
    show some _ = some _
    congr 2
    funext e
    simp only [outcome, hb]
    by_cases hs : sel e = true
    · rw [if_pos hs, if_neg (fun hex => hno e ((hw' e).1 ⟨hs, hex⟩))]
      simp [hs, hno e]
    · rw [if_neg hs, ha]; simp [hs]


/-! ### The turbine type -/

/-- the value of a variable at an entry; `none`: NaN -/
def at_ {E : Type} (fd : Fd E) (v : String) (e : E) : Option ℝ := (fd v).bind (fun a => a e)

/-- the variables the type reads are not those it writes, and are all there -/
def Ready {E : Type} (cfg : Cfg) (fd : Fd E) : Prop :=
  (∀ v ∈ [cfg.WSP, cfg.WSCT, cfg.q], v ≠ "P" ∧ v ≠ "CT" ∧ (fd v).isSome) ∧ (fd "P").isSome ∧ (fd "CT").isSome ∧ (cfg.rho.isSome → (fd "RHO").isSome)

/-- the calculation with the user's tables for power and thrust coefficient -/
def run {E : Type} (cfg : Cfg) (FP FC : Frame) (es : List E) (sel : E → Bool) (fd : Fd E) : Option (Fd E) :=
  calculate cfg (load FP).2 (load FC).2 es sel fd

/-- the wind speed `v` of the entry is within the range of the table -/
def Hits {E : Type} (F : Frame) (fd : Fd E) (v : String) (e : E) : Prop := ∃ w, at_ fd v e = some w ∧ InRange F w

/-- the look-up in table `F` at the wind speed of variable `v`, corrected with exponent `x` -/
def lookAt {E : Type} (F : Frame) (cfg : Cfg) (p : Option ℝ) (x : ℝ) (fd : Fd E) (v : String) (e : E) : Option ℝ :=
  (speedAt cfg.rho x p x fd v e).bind (fun w => (at_ fd cfg.q e).bind (fun q => look F w q))

lemma hits_iff {E : Type} (F : Frame) (h : Proper F) (fd : Fd E) (v : String) (e : E) :
    (∃ w, (fd v).bind (fun a => a e) = some w ∧ inside (load F).2.ws w = true) ↔ Hits F fd v e := by
  unfold Hits InRange at_
  constructor
  · rintro ⟨w, h1, h2⟩; rw [inside_range _ (ws_sorted F h.1)] at h2; simp only [ws_mem] at h2; exact ⟨w, h1, h2⟩
  · rintro ⟨w, h1, h2⟩; refine ⟨w, h1, ?_⟩; rw [inside_range _ (ws_sorted F h.1)]; simp only [ws_mem]; exact h2

lemma interpn_look (F : Frame) (s q : Option ℝ) : interpn (load F).2 (s, q) = s.bind (fun w => q.bind (fun q => look F w q)) := by
  cases s <;> cases q <;> rfl

lemma lookAt_eq {E : Type} (F : Frame) (cfg : Cfg) (p : Option ℝ) (x : ℝ) (fd : Fd E) (v : String) (e : E) :
    interpn (load F).2 (speedAt cfg.rho x p x fd v e, (fd cfg.q).bind (fun a => a e)) = lookAt F cfg p x fd v e := by
  rw [interpn_look]; rfl

lemma lookAt_yaw {E : Type} (F : Frame) (cfg : Cfg) (p : Option ℝ) (x : ℝ) (fd : Fd E) (v : String) (e : E) (h : (lookAt F cfg p x fd v e).isSome)
    (y : E → Option ℝ) (hy : fd "YAWM" = some y) (hp : p.isSome) : (y e).isSome := by
  obtain ⟨p, rfl⟩ := Option.isSome_iff_exists.1 hp
  cases hye : y e with
  | some z => rfl
  | none =>
      unfold lookAt speedAt at h
      simp only [hy, hye, Option.bind_none] at h
      have : mul (speedRho cfg.rho x fd v e) none = none := by cases speedRho cfg.rho x fd v e <;> rfl
      rw [this] at h; simp at h

lemma speedAt_put {E : Type} (rho p : Option ℝ) (x : ℝ) (fd : Fd E) (v : String) (e : E) (b : E → Option ℝ) (hv : v ≠ "P") :
    speedAt rho x p x (put fd "P" b) v e = speedAt rho x p x fd v e := by
  unfold speedAt speedRho
  rw [put_ne _ _ _ _ hv, put_ne _ "RHO" _ _ (by decide), put_ne _ "YAWM" _ _ (by decide)]

/-- all selected entries have the wind speed `v` within the range of the power table -/
def AllHit {E : Type} (FP : Frame) (sel : E → Bool) (fd : Fd E) (v : String) : Prop := ∀ e, sel e = true → Hits FP fd v e

/-- one part of the calculation works: either no entry is within the range, or with a density correction all are, and the look-up of each works -/
def Works {E : Type} (FP F : Frame) (cfg : Cfg) (sel : E → Bool) (fd : Fd E) (v : String) (p : Option ℝ) (x : ℝ) : Prop :=
  (cfg.rho.isSome → (∃ e, sel e = true ∧ Hits FP fd v e) → AllHit FP sel fd v) ∧
  ∀ e, sel e = true → Hits FP fd v e → (lookAt F cfg p x fd cfg.WSP e).isSome

lemma good_iff {E : Type} (es : List E) (hes : ∀ e : E, e ∈ es) (sel : E → Bool) (cfg : Cfg) (FP F : Frame) (hP : Proper FP) (c : Part) (fd : Fd E)
    (hx : c.eRho = c.eYaw) (hwq : c.wsQ = cfg.WSP) :
    Good es sel cfg.q cfg.rho (load FP).2.ws (load F).2 c fd ↔ Works FP F cfg sel fd c.wsSel c.p c.eYaw := by
  unfold Good Works AllHit
  simp only [hits_iff FP hP, hx, hwq, lookAt_eq]
  constructor
  · intro h
    refine ⟨fun hr ⟨e, hs, hh⟩ e' hs' => (h ⟨e, hes e, hs, hh⟩).1 hr e' (hes e') hs', fun e hs hh => ((h ⟨e, hes e, hs, hh⟩).2 e (hes e) hs hh).1⟩
  · rintro ⟨h1, h2⟩ ⟨e, _, hs, hh⟩
    exact ⟨fun hr e' _ hs' => h1 hr ⟨e, hs, hh⟩ e' hs', fun e' _ hs' hh' => ⟨h2 e' hs' hh', lookAt_yaw _ _ _ _ _ _ _ (h2 e' hs' hh')⟩⟩

/-- what a part writes, in terms of the user's tables -/
def written {E : Type} (FP F : Frame) (cfg : Cfg) (sel : E → Bool) (fd : Fd E) (out v : String) (p : Option ℝ) (x : ℝ) (e : E) : Option ℝ :=
  if sel e = true then (if Hits FP fd v e then lookAt F cfg p x fd cfg.WSP e else some 0) else at_ fd out e

lemma outcome_eq {E : Type} (sel : E → Bool) (cfg : Cfg) (FP F : Frame) (hP : Proper FP) (c : Part) (fd : Fd E) (hx : c.eRho = c.eYaw) (hwq : c.wsQ = cfg.WSP) :
    outcome sel cfg.q cfg.rho (load FP).2.ws (load F).2 c fd = written FP F cfg sel fd c.out c.wsSel c.p c.eYaw := by
  funext e
  unfold outcome written
  rw [hx, hwq, lookAt_eq]
  simp only [hits_iff FP hP]
  rfl

lemma ws_ne (F : Frame) (h : F.rows ≠ []) : (load F).2.ws ≠ [] := by
  intro hn
  have := (rows_perm F).length_eq
  have h2 : (sortFrame F).rows.map Prod.fst = [] := hn
  rw [List.map_eq_nil_iff] at h2
  rw [h2] at this
  exact h (List.length_eq_zero_iff.1 (by simpa using this.symm))

lemma run_eq {E : Type} (cfg : Cfg) (FP FC : Frame) (hP : Proper FP) (hne : FP.rows ≠ []) (es : List E) (hes : ∀ e : E, e ∈ es)
    (sel : E → Bool) (fd : Fd E) (hr : Ready cfg fd) :
    run cfg FP FC es sel fd =
      if Works FP FP cfg sel fd cfg.WSP cfg.pP (1 / 3) ∧ Works FP FC cfg sel fd cfg.WSCT cfg.pCt (1 / 2) then
        some (put (put fd "P" (written FP FP cfg sel fd "P" cfg.WSP cfg.pP (1 / 3))) "CT" (written FP FC cfg sel fd "CT" cfg.WSCT cfg.pCt (1 / 2)))
      else none := by
  obtain ⟨hv, p1, p2, p3⟩ := hr
  obtain ⟨⟨a1, a2, a3⟩, ⟨b1, b2, b3⟩, ⟨c1, c2, c3⟩⟩ : (cfg.WSP ≠ "P" ∧ cfg.WSP ≠ "CT" ∧ (fd cfg.WSP).isSome) ∧ (cfg.WSCT ≠ "P" ∧ cfg.WSCT ≠ "CT" ∧ (fd cfg.WSCT).isSome) ∧
      (cfg.q ≠ "P" ∧ cfg.q ≠ "CT" ∧ (fd cfg.q).isSome) := ⟨hv _ (by simp), hv _ (by simp), hv _ (by simp)⟩
  have e1 := step_eq es hes sel cfg.q cfg.rho (load FP).2.ws (ws_ne FP hne) (load FP).2 (partP cfg) fd
    ⟨a1, a1, c1, by show ("RHO" : String) ≠ "P"; decide, by show ("YAWM" : String) ≠ "P"; decide⟩ ⟨a3, a3, c3, p1, p3⟩
  have g1 := good_iff es hes sel cfg FP FP hP (partP cfg) fd rfl rfl
  have o1 := outcome_eq sel cfg FP FP hP (partP cfg) fd rfl rfl
  unfold run calculate
  rw [e1]
  by_cases w1 : Works FP FP cfg sel fd cfg.WSP cfg.pP (1 / 3)
  · rw [if_pos (g1.2 w1), o1]
    set fd1 := put fd (partP cfg).out (written FP FP cfg sel fd (partP cfg).out (partP cfg).wsSel (partP cfg).p (partP cfg).eYaw) with hfd1
    have keep : ∀ u, u ≠ "P" → fd1 u = fd u := fun u hu => put_ne _ _ _ _ hu
    have e2 := step_eq es hes sel cfg.q cfg.rho (load FP).2.ws (ws_ne FP hne) (load FC).2 (partCt cfg) fd1
      ⟨b2, a2, c2, by show ("RHO" : String) ≠ "CT"; decide, by show ("YAWM" : String) ≠ "CT"; decide⟩ ⟨by rw [keep _ (by exact b1)]; exact b3, by rw [keep _ (by exact a1)]; exact a3, by rw [keep _ c1]; exact c3,
        by rw [keep _ (by show ("CT" : String) ≠ "P"; decide)]; exact p2, fun h => by rw [keep _ (by decide)]; exact p3 h⟩
    have g2 := good_iff es hes sel cfg FP FC hP (partCt cfg) fd1 rfl rfl
    have o2 := outcome_eq sel cfg FP FC hP (partCt cfg) fd1 rfl rfl
    have hits2 : ∀ e, Hits FP fd1 cfg.WSCT e ↔ Hits FP fd cfg.WSCT e := fun e => by unfold Hits at_; rw [keep _ b1]
    have look2 : ∀ e, lookAt FC cfg cfg.pCt (1 / 2) fd1 cfg.WSP e = lookAt FC cfg cfg.pCt (1 / 2) fd cfg.WSP e := fun e => by
      unfold lookAt at_; rw [keep _ c1, hfd1]; show ((speedAt _ _ _ _ (put fd "P" _) _ _).bind _) = _; rw [speedAt_put _ _ _ _ _ _ _ a1]
    have w2 : Works FP FC cfg sel fd1 cfg.WSCT cfg.pCt (1 / 2) ↔ Works FP FC cfg sel fd cfg.WSCT cfg.pCt (1 / 2) := by
      unfold Works AllHit; simp only [hits2, look2]
    have wr2 : written FP FC cfg sel fd1 "CT" cfg.WSCT cfg.pCt (1 / 2) = written FP FC cfg sel fd "CT" cfg.WSCT cfg.pCt (1 / 2) := by
      funext e; unfold written; simp only [hits2, look2, at_]; rw [keep "CT" (by decide)]
    show step es sel cfg.q cfg.rho (load FP).2.ws (load FC).2 (partCt cfg) fd1 = _
    rw [e2, o2]
    by_cases w3 : Works FP FC cfg sel fd cfg.WSCT cfg.pCt (1 / 2)
    · rw [if_pos (g2.2 (w2.2 w3)), if_pos ⟨w1, w3⟩]
      show some (put fd1 "CT" (written FP FC cfg sel fd1 "CT" cfg.WSCT cfg.pCt (1 / 2))) = _
      rw [wr2]; rfl
    · rw [if_neg (fun h => w3 (w2.1 (g2.1 h))), if_neg (fun h => w3 h.2)]
  · rw [if_neg (fun h => w1 (g1.1 h)), if_neg (fun h => w1 h.1)]; rfl

/-- **C73 (success).** The calculation works if and only if for both power and thrust: each selected entry whose wind speed is within the range
of the power table has its corrected wind speed and second quantity within the table; with a density correction, moreover, either all
selected entries are within the range or none. -/
theorem C73_succeeds {E : Type} (cfg : Cfg) (FP FC : Frame) (hP : Proper FP) (hne : FP.rows ≠ []) (es : List E) (hes : ∀ e : E, e ∈ es)
    (sel : E → Bool) (fd : Fd E) (hr : Ready cfg fd) :
    (run cfg FP FC es sel fd).isSome ↔
      ((cfg.rho.isSome → (∃ e, sel e = true ∧ Hits FP fd cfg.WSP e) → ∀ e, sel e = true → Hits FP fd cfg.WSP e) ∧
        ∀ e, sel e = true → Hits FP fd cfg.WSP e → (lookAt FP cfg cfg.pP (1 / 3) fd cfg.WSP e).isSome) ∧
      ((cfg.rho.isSome → (∃ e, sel e = true ∧ Hits FP fd cfg.WSCT e) → ∀ e, sel e = true → Hits FP fd cfg.WSCT e) ∧
        ∀ e, sel e = true → Hits FP fd cfg.WSCT e → (lookAt FC cfg cfg.pCt (1 / 2) fd cfg.WSP e).isSome) := by
  rw [run_eq cfg FP FC hP hne es hes sel fd hr]
  show (if Works _ _ _ _ _ _ _ _ ∧ Works _ _ _ _ _ _ _ _ then _ else none).isSome ↔ Works _ _ _ _ _ _ _ _ ∧ Works _ _ _ _ _ _ _ _
  split_ifs with h
  · simp only [Option.isSome_some, true_iff]; exact h
  · simp only [Option.isSome_none, Bool.false_eq_true, false_iff]; exact h

/-- **C73 (power).** After a calculation the power of entries that are not selected is unchanged, it is zero for selected entries whose wind
speed is NaN or not within the range of the power table, and for all others it is the value of the power table at the corrected wind speed
and the second quantity. -/
theorem C73_power {E : Type} (cfg : Cfg) (FP FC : Frame) (hP : Proper FP) (hne : FP.rows ≠ []) (es : List E) (hes : ∀ e : E, e ∈ es)
    (sel : E → Bool) (fd fd' : Fd E) (hr : Ready cfg fd) (h : run cfg FP FC es sel fd = some fd') (e : E) :
    (sel e = false → at_ fd' "P" e = at_ fd "P" e) ∧
    (sel e = true → ¬ Hits FP fd cfg.WSP e → at_ fd' "P" e = some 0) ∧
    (sel e = true → Hits FP fd cfg.WSP e → ∃ w q v, speedAt cfg.rho (1 / 3) cfg.pP (1 / 3) fd cfg.WSP e = some w ∧ at_ fd cfg.q e = some q ∧
      look FP w q = some v ∧ at_ fd' "P" e = some v) := by
  rw [run_eq cfg FP FC hP hne es hes sel fd hr] at h
  split_ifs at h with hw
  obtain ⟨⟨-, w2⟩, -⟩ := hw
  simp only [Option.some.injEq] at h
  have hv : at_ fd' "P" e = written FP FP cfg sel fd "P" cfg.WSP cfg.pP (1 / 3) e := by
    rw [← h]; unfold at_; rw [put_ne _ "P" _ _ (by decide), put_same]; rfl
  rw [hv]
  unfold written
  refine ⟨fun hs => by simp [hs], fun hs hh => by simp [hs, hh], fun hs hh => ?_⟩
  rw [if_pos hs, if_pos hh]
  obtain ⟨v, hv⟩ := Option.isSome_iff_exists.1 (w2 e hs hh)
  rw [hv]
  unfold lookAt at hv
  rw [Option.bind_eq_some_iff] at hv
  obtain ⟨w, hw, hv⟩ := hv
  rw [Option.bind_eq_some_iff] at hv
  obtain ⟨q, hq, hv⟩ := hv
  exact ⟨w, q, v, hw, hq, hv, rfl⟩

/-- **C73 (thrust as calculated).** The thrust coefficient is unchanged for entries that are not selected. It is zero for selected entries whose
wind speed *for the thrust* is not within the range of the *power* table, and for all others it is the value of the thrust table at the
corrected wind speed *for the power*. -/
theorem C73_thrust {E : Type} (cfg : Cfg) (FP FC : Frame) (hP : Proper FP) (hne : FP.rows ≠ []) (es : List E) (hes : ∀ e : E, e ∈ es)
    (sel : E → Bool) (fd fd' : Fd E) (hr : Ready cfg fd) (h : run cfg FP FC es sel fd = some fd') (e : E) :
    (sel e = false → at_ fd' "CT" e = at_ fd "CT" e) ∧
    (sel e = true → ¬ Hits FP fd cfg.WSCT e → at_ fd' "CT" e = some 0) ∧
    (sel e = true → Hits FP fd cfg.WSCT e → ∃ w q v, speedAt cfg.rho (1 / 2) cfg.pCt (1 / 2) fd cfg.WSP e = some w ∧ at_ fd cfg.q e = some q ∧
      look FC w q = some v ∧ at_ fd' "CT" e = some v) := by
  rw [run_eq cfg FP FC hP hne es hes sel fd hr] at h
  split_ifs at h with hw
  obtain ⟨-, ⟨-, w2⟩⟩ := hw
  simp only [Option.some.injEq] at h
  have hv : at_ fd' "CT" e = written FP FC cfg sel fd "CT" cfg.WSCT cfg.pCt (1 / 2) e := by
    rw [← h]; unfold at_; rw [put_same]; rfl
  rw [hv]
  unfold written
  refine ⟨fun hs => by simp [hs], fun hs hh => by simp [hs, hh], fun hs hh => ?_⟩
  rw [if_pos hs, if_pos hh]
  obtain ⟨v, hv⟩ := Option.isSome_iff_exists.1 (w2 e hs hh)
  rw [hv]
  unfold lookAt at hv
  rw [Option.bind_eq_some_iff] at hv
  obtain ⟨w, hw, hv⟩ := hv
  rw [Option.bind_eq_some_iff] at hv
  obtain ⟨q, hq, hv⟩ := hv
  exact ⟨w, q, v, hw, hq, hv, rfl⟩

/-- **C73 (nothing else).** All other variables, in particular the wind speeds, are unchanged. -/
theorem C73_rest {E : Type} (cfg : Cfg) (FP FC : Frame) (hP : Proper FP) (hne : FP.rows ≠ []) (es : List E) (hes : ∀ e : E, e ∈ es)
    (sel : E → Bool) (fd fd' : Fd E) (hr : Ready cfg fd) (h : run cfg FP FC es sel fd = some fd') (v : String) (h1 : v ≠ "P") (h2 : v ≠ "CT") :
    fd' v = fd v := by
  rw [run_eq cfg FP FC hP hne es hes sel fd hr] at h
  split_ifs at h
  simp only [Option.some.injEq] at h
  rw [← h, put_ne _ _ _ _ h2, put_ne _ _ _ _ h1]

/-- **C73 (thrust, partial).** If both wind speed variables are the same and both tables have the same range of wind speeds, the thrust coefficient
is zero for selected entries out of the range of the thrust table, and otherwise the value of the thrust table at the corrected wind speed.
Missing: different variables or ranges, see `C73_thrust_wind_speed_ignored` and `C73_thrust_range`. -/
theorem C73_thrust_partial {E : Type} (cfg : Cfg) (FP FC : Frame) (hP : Proper FP) (hne : FP.rows ≠ []) (es : List E) (hes : ∀ e : E, e ∈ es)
    (sel : E → Bool) (fd fd' : Fd E) (hr : Ready cfg fd) (h : run cfg FP FC es sel fd = some fd') (hv : cfg.WSP = cfg.WSCT)
    (hrange : ∀ w, InRange FP w ↔ InRange FC w) (e : E) (hs : sel e = true) :
    (¬ Hits FC fd cfg.WSCT e → at_ fd' "CT" e = some 0) ∧
    (Hits FC fd cfg.WSCT e → ∃ w q v, speedAt cfg.rho (1 / 2) cfg.pCt (1 / 2) fd cfg.WSCT e = some w ∧ at_ fd cfg.q e = some q ∧
      look FC w q = some v ∧ at_ fd' "CT" e = some v) := by
  obtain ⟨-, t2, t3⟩ := C73_thrust cfg FP FC hP hne es hes sel fd fd' hr h e
  have hh : Hits FP fd cfg.WSCT e ↔ Hits FC fd cfg.WSCT e := by unfold Hits; simp only [hrange]
  rw [hh] at t2 t3
  rw [hv] at t3
  exact ⟨t2 hs, t3 hs⟩

/-- **C73 (finding).** The wind speed for the thrust counts only for its range: two calculations whose data differ only in its values,
within the range of the power table, give the same thrust coefficients. -/
theorem C73_thrust_wind_speed_ignored {E : Type} (cfg : Cfg) (FP FC : Frame) (hP : Proper FP) (hne : FP.rows ≠ []) (es : List E) (hes : ∀ e : E, e ∈ es)
    (sel : E → Bool) (fd fd' : Fd E) (hr : Ready cfg fd) (h : run cfg FP FC es sel fd = some fd') (hv : cfg.WSP ≠ cfg.WSCT)
    (hq : cfg.WSCT ≠ cfg.q ∧ cfg.WSCT ≠ "RHO" ∧ cfg.WSCT ≠ "YAWM") (b : E → Option ℝ) (h1 : ∀ e, sel e = true → Hits FP fd cfg.WSCT e)
    (h2 : ∀ e, sel e = true → ∃ w, b e = some w ∧ InRange FP w) :
    ∃ fd2, run cfg FP FC es sel (put fd cfg.WSCT b) = some fd2 ∧ ∀ e, at_ fd2 "CT" e = at_ fd' "CT" e := by
  have k : ∀ u, u ≠ cfg.WSCT → put fd cfg.WSCT b u = fd u := fun u hu => put_ne _ _ _ _ hu
  have hcP : ("P" : String) ≠ cfg.WSCT := fun hc => (hr.1 cfg.WSCT (by simp)).1 hc.symm
  have hcC : ("CT" : String) ≠ cfg.WSCT := fun hc => (hr.1 cfg.WSCT (by simp)).2.1 hc.symm
  have hr2 : Ready cfg (put fd cfg.WSCT b) := by
    refine ⟨fun v hm => ⟨(hr.1 v hm).1, (hr.1 v hm).2.1, ?_⟩, ?_, ?_, ?_⟩
    · by_cases hvc : v = cfg.WSCT
      · rw [hvc, put_same]; rfl
      · rw [k v hvc]; exact (hr.1 v hm).2.2
    · rw [k _ hcP]; exact hr.2.1
    · rw [k _ hcC]; exact hr.2.2.1
    · intro hs; rw [k _ (Ne.symm hq.2.1)]; exact hr.2.2.2 hs
  have hits : ∀ e, Hits FP (put fd cfg.WSCT b) cfg.WSP e ↔ Hits FP fd cfg.WSP e := fun e => by unfold Hits at_; rw [k _ hv]
  have hitsC : ∀ e, sel e = true → Hits FP (put fd cfg.WSCT b) cfg.WSCT e := fun e hs => by
    obtain ⟨w, hw, hi⟩ := h2 e hs
    exact ⟨w, by unfold at_; rw [put_same]; exact hw, hi⟩
  have lk : ∀ F p x e, lookAt F cfg p x (put fd cfg.WSCT b) cfg.WSP e = lookAt F cfg p x fd cfg.WSP e := fun F p x e => by
    unfold lookAt speedAt speedRho at_
    rw [k _ hv, k _ (Ne.symm hq.1), k _ (Ne.symm hq.2.1), k _ (Ne.symm hq.2.2)]
  have hs := (C73_succeeds cfg FP FC hP hne es hes sel fd hr).1 (by rw [h]; rfl)
  have hs2 : (run cfg FP FC es sel (put fd cfg.WSCT b)).isSome := by
    rw [C73_succeeds cfg FP FC hP hne es hes sel _ hr2]
    simp only [hits, lk]
    exact ⟨hs.1, fun _ _ => hitsC, fun e he _ => hs.2.2 e he (h1 e he)⟩
  obtain ⟨fd2, hfd2⟩ := Option.isSome_iff_exists.1 hs2
  refine ⟨fd2, hfd2, fun e => ?_⟩
  obtain ⟨t1, -, t3⟩ := C73_thrust cfg FP FC hP hne es hes sel fd fd' hr h e
  obtain ⟨u1, -, u3⟩ := C73_thrust cfg FP FC hP hne es hes sel _ fd2 hr2 hfd2 e
  cases hse : sel e with
  | false => rw [t1 hse, u1 hse]; unfold at_; rw [k _ hcC]
  | true =>
      obtain ⟨w, q, v, a1, a2, a3, a4⟩ := t3 hse (h1 e hse)
      obtain ⟨w', q', v', b1, b2, b3, b4⟩ := u3 hse (hitsC e hse)
      have l1 : lookAt FC cfg cfg.pCt (1 / 2) fd cfg.WSP e = some v := by unfold lookAt; rw [a1, a2]; exact a3
      have l2 : lookAt FC cfg cfg.pCt (1 / 2) (put fd cfg.WSCT b) cfg.WSP e = some v' := by unfold lookAt; rw [b1, b2]; exact b3
      rw [lk, l1] at l2
      rw [a4, b4, l2]

/-- **C73 (finding).** A selected entry with a wind speed within the range of the power table but not within the thrust table makes the
calculation fail, instead of giving zero thrust. -/
theorem C73_thrust_range {E : Type} (cfg : Cfg) (FP FC : Frame) (hP : Proper FP) (hC : Proper FC) (hne : FP.rows ≠ []) (es : List E) (hes : ∀ e : E, e ∈ es)
    (sel : E → Bool) (fd : Fd E) (hr : Ready cfg fd) (e : E) (hs : sel e = true) (w : ℝ) (hw : at_ fd cfg.WSCT e = some w) (hin : InRange FP w)
    (hv : cfg.WSP = cfg.WSCT) (hplain : cfg.rho = none ∧ (cfg.pCt = none ∨ fd "YAWM" = none)) (hout : ¬ InRange FC w) : run cfg FP FC es sel fd = none := by
  rw [← Option.not_isSome_iff_eq_none, C73_succeeds cfg FP FC hP hne es hes sel fd hr]
  rintro ⟨-, -, h2⟩
  have := h2 e hs ⟨w, hw, hin⟩
  have hsp : speedAt cfg.rho (1 / 2) cfg.pCt (1 / 2) fd cfg.WSP e = some w := by
    unfold speedAt speedRho
    rw [hplain.1]
    rcases hplain.2 with hp | hy
    · rw [hp, hv]
      have : (fd cfg.WSCT).bind (fun a => a e) = some w := hw
      cases fd "YAWM" <;> simp [this]
    · rw [hy, hv]; exact hw
  unfold lookAt at this
  rw [hsp] at this
  cases hq : at_ fd cfg.q e with
  | none => rw [hq] at this; simp at this
  | some q =>
      rw [hq] at this
      simp only [Option.bind_some] at this
      rw [C73_range FC hC] at this
      exact hout this.1

/-- **C73 (finding).** Wind speeds within the range of the power table that the corrections move out of it make the calculation fail. -/
theorem C73_corrected_out {E : Type} (cfg : Cfg) (FP FC : Frame) (hP : Proper FP) (hne : FP.rows ≠ []) (es : List E) (hes : ∀ e : E, e ∈ es)
    (sel : E → Bool) (fd : Fd E) (hr : Ready cfg fd) (e : E) (hs : sel e = true) (hin : Hits FP fd cfg.WSP e) (w : ℝ)
    (hw : speedAt cfg.rho (1 / 3) cfg.pP (1 / 3) fd cfg.WSP e = some w) (hout : ¬ InRange FP w) : run cfg FP FC es sel fd = none := by
  rw [← Option.not_isSome_iff_eq_none, C73_succeeds cfg FP FC hP hne es hes sel fd hr]
  rintro ⟨⟨-, h2⟩, -⟩
  have := h2 e hs hin
  unfold lookAt at this
  rw [hw] at this
  cases hq : at_ fd cfg.q e with
  | none => rw [hq] at this; simp at this
  | some q =>
      rw [hq] at this
      simp only [Option.bind_some] at this
      rw [C73_range FP hP] at this
      exact hout this.1

/-- **C73 (finding).** With a density correction the calculation fails as soon as one selected entry is within the range of the power table
and another one is not, for instance at standstill. -/
theorem C73_density_fails {E : Type} (cfg : Cfg) (FP FC : Frame) (hP : Proper FP) (hne : FP.rows ≠ []) (es : List E) (hes : ∀ e : E, e ∈ es)
    (sel : E → Bool) (fd : Fd E) (hr : Ready cfg fd) (hrho : cfg.rho.isSome) (e e' : E) (hs : sel e = true) (hs' : sel e' = true)
    (h : Hits FP fd cfg.WSP e) (h' : ¬ Hits FP fd cfg.WSP e') : run cfg FP FC es sel fd = none := by
  rw [← Option.not_isSome_iff_eq_none, C73_succeeds cfg FP FC hP hne es hes sel fd hr]
  rintro ⟨⟨h1, -⟩, -⟩
  exact h' (h1 hrho ⟨e, hs, h⟩ e' hs')

/-- **C73 (independence).** The results of an entry depend only on its own data: whatever the other states and turbines of the chunk, and the size of
the chunk, are. -/
theorem C73_independent {E E' : Type} (cfg : Cfg) (FP FC : Frame) (hP : Proper FP) (hne : FP.rows ≠ []) (es : List E) (es' : List E')
    (hes : ∀ e : E, e ∈ es) (hes' : ∀ e : E', e ∈ es') (sel : E → Bool) (sel' : E' → Bool) (fd r : Fd E) (fd' r' : Fd E') (hr : Ready cfg fd) (hr' : Ready cfg fd')
    (e : E) (e' : E') (hsel : sel e = sel' e') (hsame : ∀ v, (fd v).map (fun a => a e) = (fd' v).map (fun a => a e'))
    (h : run cfg FP FC es sel fd = some r) (h' : run cfg FP FC es' sel' fd' = some r') :
    at_ r "P" e = at_ r' "P" e' ∧ at_ r "CT" e = at_ r' "CT" e' := by
  have ha : ∀ v, at_ fd v e = at_ fd' v e' := fun v => by
    have := hsame v
    unfold at_
    cases h1 : fd v <;> cases h2 : fd' v <;> simp_all
  have hh : ∀ v, Hits FP fd v e ↔ Hits FP fd' v e' := fun v => by unfold Hits; rw [ha]
  have hl : ∀ F p x, lookAt F cfg p x fd cfg.WSP e = lookAt F cfg p x fd' cfg.WSP e' := fun F p x => by
    have a1 : ∀ v, (fd v).bind (fun a => a e) = (fd' v).bind (fun a => a e') := ha
    have a2 : speedRho cfg.rho x fd cfg.WSP e = speedRho cfg.rho x fd' cfg.WSP e' := by unfold speedRho; rw [a1, a1]
    have a3 : speedAt cfg.rho x p x fd cfg.WSP e = speedAt cfg.rho x p x fd' cfg.WSP e' := by
      unfold speedAt
      rw [a2]
      have := hsame "YAWM"
      cases h1 : fd "YAWM" <;> cases h2 : fd' "YAWM" <;> cases p <;> simp_all
    unfold lookAt; rw [a3, ha]
  rw [run_eq cfg FP FC hP hne es hes sel fd hr] at h
  rw [run_eq cfg FP FC hP hne es' hes' sel' fd' hr'] at h'
  split_ifs at h h'
  simp only [Option.some.injEq] at h h'
  have x1 : at_ r "P" e = written FP FP cfg sel fd "P" cfg.WSP cfg.pP (1 / 3) e := by rw [← h]; unfold at_; rw [put_ne _ "P" _ _ (by decide), put_same]; rfl
  have x2 : at_ r' "P" e' = written FP FP cfg sel' fd' "P" cfg.WSP cfg.pP (1 / 3) e' := by rw [← h']; unfold at_; rw [put_ne _ "P" _ _ (by decide), put_same]; rfl
  have y1 : at_ r "CT" e = written FP FC cfg sel fd "CT" cfg.WSCT cfg.pCt (1 / 2) e := by rw [← h]; unfold at_; rw [put_same]; rfl
  have y2 : at_ r' "CT" e' = written FP FC cfg sel' fd' "CT" cfg.WSCT cfg.pCt (1 / 2) e' := by rw [← h']; unfold at_; rw [put_same]; rfl
  rw [x1, x2, y1, y2]
  unfold written
  rw [hsel]
  simp only [hh, hl, ha, and_self]

/-- **C73 (independence of failures, partial).** Without density correction a calculation works if and only if it works for each selected entry
alone. Missing: the density correction, see `C73_density_fails`. -/
theorem C73_alone_partial {E : Type} (cfg : Cfg) (FP FC : Frame) (hP : Proper FP) (hne : FP.rows ≠ []) (es : List E) (hes : ∀ e : E, e ∈ es)
    (sel : E → Bool) (fd : Fd E) (hr : Ready cfg fd) (hrho : cfg.rho = none) :
    (run cfg FP FC es sel fd).isSome ↔ ∀ e, sel e = true → (run cfg FP FC es (fun x => decide (x = e)) fd).isSome := by
  simp only [C73_succeeds cfg FP FC hP hne es hes _ fd hr, hrho, Option.isSome_none, Bool.false_eq_true, false_imp_iff, true_and, decide_eq_true_eq]
  constructor
  · rintro ⟨h1, h2⟩ e hs
    exact ⟨fun x hx => by subst hx; exact h1 _ hs, fun x hx => by subst hx; exact h2 _ hs⟩
  · intro h
    exact ⟨fun e hs => (h e hs).1 e rfl, fun e hs => (h e hs).2 e rfl⟩

/-- **C73 (corrections).** For a positive density and a yaw misalignment below 90 degrees, the wind speed used for power satisfies
`w^3 = ws^3 * (rho_ref / rho) * cos(yaw)^p`, and the one for thrust `w^2 = ws^2 * (rho_ref / rho) * cos(yaw)^p`. -/
theorem C73_corrections {E : Type} (r p : ℝ) (hr : 0 < r) (fd : Fd E) (v : String) (e : E) (ws rho y : ℝ) (Y : E → Option ℝ) (hY : fd "YAWM" = some Y)
    (h1 : at_ fd v e = some ws) (h2 : at_ fd "RHO" e = some rho) (hrho : 0 < rho) (h3 : Y e = some y) (hy : |y| < 90) :
    (∃ w, speedAt (some r) (1 / 3) (some p) (1 / 3) fd v e = some w ∧ w ^ 3 = ws ^ 3 * (r / rho) * Real.cos (y / 180 * Real.pi) ^ p) ∧
    (∃ w, speedAt (some r) (1 / 2) (some p) (1 / 2) fd v e = some w ∧ w ^ 2 = ws ^ 2 * (r / rho) * Real.cos (y / 180 * Real.pi) ^ p) := by
  have hcos : 0 < Real.cos (y / 180 * Real.pi) := by
    apply Real.cos_pos_of_mem_Ioo
    rw [abs_lt] at hy
    have := Real.pi_pos
    constructor <;> nlinarith [hy.1, hy.2]
  have hc := Real.rpow_pos_of_pos hcos p
  have hq : 0 < r / rho := div_pos hr hrho
  have key : ∀ x : ℝ, speedAt (some r) x (some p) x fd v e = some (ws * (r / rho) ^ x * (Real.cos (y / 180 * Real.pi) ^ p) ^ x) := by
    intro x
    have e1 : (fd v).bind (fun a => a e) = some ws := h1
    have e2 : (fd "RHO").bind (fun a => a e) = some rho := h2
    unfold speedAt speedRho
    rw [hY]
    simp only [e1, e2, h3, Option.bind_some, rhoFactor, yawFactor, npPow, if_neg hrho.ne', if_pos hq, if_pos hcos, if_pos hc, mul]
  have cube : ∀ (z : ℝ) (n : ℕ), n ≠ 0 → 0 ≤ z → (z ^ (1 / (n : ℝ))) ^ n = z := by
    intro z n hn hz
    rw [← Real.rpow_natCast, ← Real.rpow_mul hz, one_div, inv_mul_cancel₀ (by exact_mod_cast hn), Real.rpow_one]
  refine ⟨⟨_, key _, ?_⟩, ⟨_, key _, ?_⟩⟩
  · have c1 := cube (r / rho) 3 (by norm_num) hq.le
    have c2 := cube (Real.cos (y / 180 * Real.pi) ^ p) 3 (by norm_num) hc.le
    push_cast at c1 c2
    rw [mul_pow, mul_pow, c1, c2]
  · have c1 := cube (r / rho) 2 (by norm_num) hq.le
    have c2 := cube (Real.cos (y / 180 * Real.pi) ^ p) 2 (by norm_num) hc.le
    push_cast at c1 c2
    rw [mul_pow, mul_pow, c1, c2]


/-- **C73 (finding).** A turbine that is misaligned by more than 90 degrees makes the calculation fail, unless the exponent is an integer. -/
theorem C73_reversed_fails {E : Type} (cfg : Cfg) (FP FC : Frame) (hP : Proper FP) (hne : FP.rows ≠ []) (es : List E) (hes : ∀ e : E, e ∈ es)
    (sel : E → Bool) (fd : Fd E) (hr : Ready cfg fd) (e : E) (hs : sel e = true) (hin : Hits FP fd cfg.WSP e) (p : ℝ) (hp : cfg.pP = some p)
    (hp' : ¬ ∃ n : ℤ, p = n) (Y : E → Option ℝ) (hY : fd "YAWM" = some Y) (y : ℝ) (hy : Y e = some y) (h1 : 90 < |y|) (h2 : |y| < 270) :
    run cfg FP FC es sel fd = none := by
  rw [← Option.not_isSome_iff_eq_none, C73_succeeds cfg FP FC hP hne es hes sel fd hr]
  rintro ⟨⟨-, hl⟩, -⟩
  have := hl e hs hin
  have hcos : Real.cos (y / 180 * Real.pi) < 0 := by
    rw [← Real.cos_abs]
    have hpi := Real.pi_pos
    have e1 : |y / 180 * Real.pi| = |y| / 180 * Real.pi := by
      rw [abs_mul, abs_div, abs_of_pos hpi]; norm_num
    rw [e1]
    apply Real.cos_neg_of_pi_div_two_lt_of_lt <;> nlinarith
  have hf : yawFactor p (1 / 3) y = none := by
    unfold yawFactor npPow
    rw [if_neg (by linarith), if_neg (by linarith), if_neg hp']; rfl
  have hsp : speedAt cfg.rho (1 / 3) cfg.pP (1 / 3) fd cfg.WSP e = none := by
    unfold speedAt
    rw [hY, hp]
    simp only [hy, Option.bind_some, hf]
    cases speedRho cfg.rho (1 / 3) fd cfg.WSP e <;> rfl
  unfold lookAt at this
  rw [hsp] at this
  simp at this

/-! ### Concrete cases -/

/-- a table with unsorted rows and columns -/
def F0 : Frame := ⟨[0.1, 0.05], [(10, [4, 2]), (5, [3, 1])]⟩

lemma F0_proper : Proper F0 := by
  refine ⟨?_, ?_, ?_⟩ <;> norm_num [F0]

example : Cell2 F0 5 0.1 3 := ⟨(5, [3, 1]), by simp [F0], rfl, 0, by simp [F0], by simp⟩

/-- the value in the middle of the cells -/
example : look F0 7.5 0.075 = some 2.5 := by
  have c : ∀ w c v, Cell2 F0 w c v → look F0 w c = some v := C73_cells F0 F0_proper
  have h51 := c 5 0.05 1 ⟨(5, [3, 1]), by simp [F0], rfl, 1, by simp [F0], by simp⟩
  have h53 := c 5 0.1 3 ⟨(5, [3, 1]), by simp [F0], rfl, 0, by simp [F0], by simp⟩
  have h102 := c 10 0.05 2 ⟨(10, [4, 2]), by simp [F0], rfl, 1, by simp [F0], by simp⟩
  have h104 := c 10 0.1 4 ⟨(10, [4, 2]), by simp [F0], rfl, 0, by simp [F0], by simp⟩
  have a := C73_between_columns F0 F0_proper 0.05 0.1 5 0.075 1 3 (by simp [F0]) (by simp [F0]) (by norm_num) (by norm_num [F0]) (by norm_num) (by norm_num) h51 h53
  have b := C73_between_columns F0 F0_proper 0.05 0.1 10 0.075 2 4 (by simp [F0]) (by simp [F0]) (by norm_num) (by norm_num [F0]) (by norm_num) (by norm_num) h102 h104
  have d := C73_between_rows F0 F0_proper 5 10 7.5 0.075 _ _ (by simp [F0]) (by simp [F0]) (by norm_num) (by norm_num [F0]) (by norm_num) (by norm_num) a b
  rw [d]; norm_num

/-- farm data of two entries with wind speeds 5 and 30 -/
def fd0 : Fd Bool := fun v =>
  if v = "REWS3" ∨ v = "REWS2" then some (fun b => some (if b then 5 else 30))
  else if v = "TI" then some (fun _ => some 0.1)
  else if v = "RHO" then some (fun _ => some 1.225)
  else if v = "P" ∨ v = "CT" then some (fun _ => none) else none

/-- the default variables, with and without density correction -/
def cfg0 (rho : Option ℝ) : Cfg := ⟨"TI", rho, some 1.88, some 1, "REWS3", "REWS2"⟩

lemma ready0 (rho : Option ℝ) : Ready (cfg0 rho) fd0 := by
  unfold Ready cfg0 fd0
  simp

lemma hits0 (v : String) (hv : v = "REWS3" ∨ v = "REWS2") (b : Bool) : Hits F0 fd0 v b ↔ b = true := by
  unfold Hits InRange at_ fd0
  rw [if_pos hv]
  cases b <;> norm_num [F0]

lemma look0 (p : Option ℝ) (x : ℝ) : lookAt F0 (cfg0 none) p x fd0 "REWS3" true = some 3 := by
  have h53 : look F0 5 0.1 = some 3 := C73_cells F0 F0_proper 5 0.1 3 ⟨(5, [3, 1]), by simp [F0], rfl, 0, by simp [F0], by simp⟩
  unfold lookAt speedAt speedRho cfg0 at_ fd0
  simpa using h53

lemma look0r (p : Option ℝ) (x : ℝ) : lookAt F0 (cfg0 (some 1.225)) p x fd0 "REWS3" true = some 3 := by
  have h53 : look F0 5 0.1 = some 3 := C73_cells F0 F0_proper 5 0.1 3 ⟨(5, [3, 1]), by simp [F0], rfl, 0, by simp [F0], by simp⟩
  have : rhoFactor 1.225 x (some 1.225) = some 1 := by
    unfold rhoFactor npPow
    norm_num
  unfold lookAt speedAt speedRho cfg0 at_ fd0
  simp [mul, this, h53]

/-- without density correction the calculation works: the value of the table, and zero -/
theorem C73_example : ∃ r, run (cfg0 none) F0 F0 [true, false] (fun _ => true) fd0 = some r ∧ at_ r "P" true = some 3 ∧ at_ r "P" false = some 0 ∧
    at_ r "CT" true = some 3 ∧ at_ r "CT" false = some 0 := by
  have hes : ∀ e : Bool, e ∈ [true, false] := by decide
  have hs : (run (cfg0 none) F0 F0 [true, false] (fun _ => true) fd0).isSome := by
    rw [C73_succeeds _ F0 F0 F0_proper (by simp [F0]) _ hes _ _ (ready0 none)]
    refine ⟨⟨by simp [cfg0], ?_⟩, ⟨by simp [cfg0], ?_⟩⟩
    · intro e _ hh; rw [(hits0 "REWS3" (Or.inl rfl) e).1 hh]; show (lookAt F0 _ _ _ fd0 "REWS3" true).isSome; rw [look0]; rfl
    · intro e _ hh; rw [(hits0 "REWS2" (Or.inr rfl) e).1 hh]; show (lookAt F0 _ _ _ fd0 "REWS3" true).isSome; rw [look0]; rfl
  obtain ⟨r, hr⟩ := Option.isSome_iff_exists.1 hs
  refine ⟨r, hr, ?_, ?_, ?_, ?_⟩
  · obtain ⟨w, q, v, a1, a2, a3, a4⟩ := (C73_power _ F0 F0 F0_proper (by simp [F0]) _ hes _ _ r (ready0 none) hr true).2.2 rfl ((hits0 "REWS3" (Or.inl rfl) true).2 rfl)
    have := look0 (some 1.88) (1 / 3)
    unfold lookAt at this
    have b1 : speedAt (cfg0 none).rho (1 / 3) (some 1.88) (1 / 3) fd0 "REWS3" true = some w := a1
    rw [b1, a2] at this
    rw [a4, ← a3]; exact this
  · exact (C73_power _ F0 F0 F0_proper (by simp [F0]) _ hes _ _ r (ready0 none) hr false).2.1 rfl (fun h => by simpa using (hits0 "REWS3" (Or.inl rfl) false).1 h)
  · obtain ⟨w, q, v, a1, a2, a3, a4⟩ := (C73_thrust _ F0 F0 F0_proper (by simp [F0]) _ hes _ _ r (ready0 none) hr true).2.2 rfl ((hits0 "REWS2" (Or.inr rfl) true).2 rfl)
    have := look0 (some 1) (1 / 2)
    unfold lookAt at this
    have b1 : speedAt (cfg0 none).rho (1 / 2) (some 1) (1 / 2) fd0 "REWS3" true = some w := a1
    rw [b1, a2] at this
    rw [a4, ← a3]; exact this
  · exact (C73_thrust _ F0 F0 F0_proper (by simp [F0]) _ hes _ _ r (ready0 none) hr false).2.1 rfl (fun h => by simpa using (hits0 "REWS2" (Or.inr rfl) false).1 h)

/-- **C73 (finding).** With density correction the same data fail, although the density is the reference density and each of the two entries works
alone: the result depends on how the data are split into chunks. -/
theorem C73_density_chunks : run (cfg0 (some 1.225)) F0 F0 [true, false] (fun _ => true) fd0 = none ∧
    ∀ e, (run (cfg0 (some 1.225)) F0 F0 [true, false] (fun x => decide (x = e)) fd0).isSome := by
  have hes : ∀ e : Bool, e ∈ [true, false] := by decide
  refine ⟨C73_density_fails _ F0 F0 F0_proper (by simp [F0]) _ hes _ _ (ready0 _) rfl true false rfl rfl ((hits0 "REWS3" (Or.inl rfl) true).2 rfl)
    (fun h => by simpa using (hits0 "REWS3" (Or.inl rfl) false).1 h), fun e => ?_⟩
  rw [C73_succeeds _ F0 F0 F0_proper (by simp [F0]) _ hes _ _ (ready0 _)]
  simp only [decide_eq_true_eq]
  refine ⟨⟨?_, ?_⟩, ⟨?_, ?_⟩⟩
  · rintro - ⟨a, rfl, hh⟩ b rfl; exact hh
  · intro a _ hh; rw [(hits0 "REWS3" (Or.inl rfl) a).1 hh]; show (lookAt F0 _ _ _ fd0 "REWS3" true).isSome; rw [look0r]; rfl
  · rintro - ⟨a, rfl, hh⟩ b rfl; exact hh
  · intro a _ hh; rw [(hits0 "REWS2" (Or.inr rfl) a).1 hh]; show (lookAt F0 _ _ _ fd0 "REWS3" true).isSome; rw [look0r]; rfl


end

end Foxes.Props.TwoTables
