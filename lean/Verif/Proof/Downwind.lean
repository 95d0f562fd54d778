import Verif.Model.Downwind
/- Helper lemmas about the turbine loop. -/
namespace Foxes.Downwind

variable {α P S A R : Type}

theorem upd_same (f : Nat → α) (i : Nat) (v : α) : upd f i v i = v := by simp [upd]
theorem upd_ne (f : Nat → α) {i j : Nat} (v : α) (h : j ≠ i) : upd f i v j = f j := by simp [upd, h]

/-- deltas at target `j` from the first `k` sources -/
def accTo (w : Wake P S A R) (pos : Nat → P) (fd : Nat → S) (j k : Nat) : A :=
  (List.range k).foldl (fun a i => w.add (pos i) (fd i) (pos j) a) (w.acc0 (pos j))

theorem accTo_succ (w : Wake P S A R) (pos : Nat → P) (fd : Nat → S) (j k : Nat) :
    accTo w pos fd j (k + 1) = w.add (pos k) (fd k) (pos j) (accTo w pos fd j k) := by
  simp [accTo, List.range_succ, List.foldl_append]

theorem accTo_congr (w : Wake P S A R) (pos : Nat → P) (fd fd' : Nat → S) (j k : Nat)
    (h : ∀ i, i < k → fd i = fd' i) : accTo w pos fd j k = accTo w pos fd' j k := by
  induction k with
  | zero => rfl
  | succ k ih => rw [accTo_succ, accTo_succ, ih (fun i hi => h i (by omega)), h k (by omega)]

structure InvDown (c : Farm P S R) (w : Wake P S A R) (pos : Nat → P) (n : Nat) (fd0 : Nat → S)
    (wres0 : Nat → R) (k : Nat) (st : St S A R) : Prop where
  ge : ∀ j, k ≤ j → st.fd j = fd0 j ∧ st.wres j = wres0 j
  zero : st.fd 0 = fd0 0 ∧ st.wres 0 = wres0 0
  wd : ∀ j, j < n → st.wd j = accTo w pos st.fd j (min j k)
  lt : ∀ j, j < k → 0 < j →
    st.wres j = c.plus (wres0 j) (w.fin (pos j) (c.amb (pos j)) (accTo w pos st.fd j j)) ∧
    st.fd j = c.eval (pos j) (st.wres j) (fd0 j)

theorem invDown_step (c : Farm P S R) (w : Wake P S A R) (pos : Nat → P) (n : Nat) (fd0 : Nat → S)
    (wres0 : Nat → R) (k : Nat) (hk : k < n) (st : St S A R) (h : InvDown c w pos n fd0 wres0 k st) :
    InvDown c w pos n fd0 wres0 (k + 1) (stepDown c w pos n st k) := by
  -- the evaluation
  have hev : ∃ st1 : St S A R, (if k > 0 then evalAt c w pos k st else st) = st1 ∧
      (∀ j, j ≠ k → st1.fd j = st.fd j ∧ st1.wres j = st.wres j) ∧ st1.wd = st.wd ∧
      (0 < k → st1.wres k = c.plus (wres0 k) (w.fin (pos k) (c.amb (pos k)) (accTo w pos st.fd k k)) ∧
        st1.fd k = c.eval (pos k) (st1.wres k) (fd0 k)) ∧
      (k = 0 → st1.fd 0 = st.fd 0 ∧ st1.wres 0 = st.wres 0) := by
    by_cases h0 : k > 0
    · refine ⟨_, rfl, ?_, ?_, ?_, by omega⟩
      · intro j hj
        simp only [if_pos h0, evalAt]
        exact ⟨upd_ne _ _ hj, upd_ne _ _ hj⟩
      · simp [if_pos h0, evalAt]
      · intro _
        simp only [if_pos h0, evalAt, upd_same]
        rw [(h.ge k (Nat.le_refl _)).2, (h.ge k (Nat.le_refl _)).1, h.wd k hk, Nat.min_self]
        exact ⟨rfl, rfl⟩
    · refine ⟨st, by simp [h0], fun _ _ => ⟨rfl, rfl⟩, rfl, by omega, fun _ => ⟨rfl, rfl⟩⟩
  obtain ⟨st1, he, hne, hwd, hpos, hzero⟩ := hev
  -- the contribution
  have hfin : ∃ st2 : St S A R, stepDown c w pos n st k = st2 ∧ st2.fd = st1.fd ∧ st2.wres = st1.wres ∧
      (∀ j, j < n → st2.wd j = if k < j then w.add (pos k) (st1.fd k) (pos j) (st1.wd j) else st1.wd j) := by
    refine ⟨_, rfl, ?_, ?_, ?_⟩
    · simp only [stepDown, he]; split <;> rfl
    · simp only [stepDown, he]; split <;> rfl
    · intro j hj
      simp only [stepDown, he]
      by_cases hkn : k + 1 < n
      · simp only [if_pos hkn, contribAt]
        by_cases hkj : k < j
        · simp [hkj, hj, Nat.succ_le_of_lt hkj]
        · have : ¬ (k + 1 ≤ j ∧ j < n) := by omega
          simp [hkj, this]
      · have : ¬ k < j := by omega
        simp [hkn, this]
  obtain ⟨st2, h2, hfd, hwres, hwd2⟩ := hfin
  rw [h2]
  have hcong : ∀ j m, m ≤ k → accTo w pos st2.fd j m = accTo w pos st.fd j m := by
    intro j m hm
    apply accTo_congr
    intro i hi
    rw [hfd]; exact (hne i (by omega)).1
  refine ⟨?_, ?_, ?_, ?_⟩
  · intro j hj
    rw [hfd, hwres, (hne j (by omega)).1, (hne j (by omega)).2]
    exact h.ge j (by omega)
  · rw [hfd, hwres]
    by_cases h0 : k = 0
    · rw [(hzero h0).1, (hzero h0).2]; exact h.zero
    · rw [(hne 0 (by omega)).1, (hne 0 (by omega)).2]; exact h.zero
  · intro j hj
    rw [hwd2 j hj, hwd, h.wd j hj]
    by_cases hkj : k < j
    · rw [if_pos hkj, show min j (k + 1) = k + 1 by omega, show min j k = k by omega, accTo_succ,
        hcong j k (Nat.le_refl _), hfd]
    · rw [if_neg hkj, show min j (k + 1) = min j k by omega, hcong j _ (by omega)]
  · intro j hj hj0
    rw [hcong j j (by omega), hfd, hwres]
    by_cases hjk : j = k
    · subst hjk; exact hpos hj0
    · rw [(hne j hjk).1, (hne j hjk).2]
      exact h.lt j (by omega) hj0

theorem invDown_fold (c : Farm P S R) (w : Wake P S A R) (pos : Nat → P) (n : Nat) (fd0 : Nat → S)
    (wres0 : Nat → R) (k : Nat) (hk : k ≤ n) :
    InvDown c w pos n fd0 wres0 k
      ((List.range k).foldl (stepDown c w pos n) { fd := fd0, wres := wres0, wd := fun j => w.acc0 (pos j) }) := by
  induction k with
  | zero =>
    refine ⟨fun _ _ => ⟨rfl, rfl⟩, ⟨rfl, rfl⟩, ?_, by omega⟩
    intro j _
    simp [accTo]
  | succ k ih =>
    rw [List.range_succ, List.foldl_append]
    exact invDown_step c w pos n fd0 wres0 k (by omega) _ (ih (by omega))

/-! The upwind loop is the mirror image. -/

/-- deltas at target `j` from the sources `m, m-1, ..., k` (in this order) with `m = n - 1` -/
def accFrom (w : Wake P S A R) (pos : Nat → P) (fd : Nat → S) (j n : Nat) : Nat → A
  | 0 => w.acc0 (pos j)
  | k + 1 => w.add (pos (n - 1 - k)) (fd (n - 1 - k)) (pos j) (accFrom w pos fd j n k)

theorem accFrom_congr (w : Wake P S A R) (pos : Nat → P) (fd fd' : Nat → S) (j n k : Nat)
    (h : ∀ i, n - k ≤ i → i < n → fd i = fd' i) (hk : k ≤ n) : accFrom w pos fd j n k = accFrom w pos fd' j n k := by
  induction k with
  | zero => rfl
  | succ k ih =>
    rw [accFrom, accFrom, ih (fun i hi hn => h i (by omega) hn) (by omega), h (n - 1 - k) (by omega) (by omega)]

structure InvUp (c : Farm P S R) (w : Wake P S A R) (pos : Nat → P) (n : Nat) (fd0 : Nat → S)
    (wres0 : Nat → R) (k : Nat) (st : St S A R) : Prop where
  lt : ∀ j, j < n - k → st.fd j = fd0 j ∧ st.wres j = wres0 j
  out : ∀ j, n ≤ j → st.fd j = fd0 j ∧ st.wres j = wres0 j
  last : st.fd (n - 1) = fd0 (n - 1) ∧ st.wres (n - 1) = wres0 (n - 1)
  wd : ∀ j, j < n → st.wd j = accFrom w pos st.fd j n (min (n - 1 - j) k)
  ge : ∀ j, n - k ≤ j → j + 1 < n →
    st.wres j = c.plus (wres0 j) (w.fin (pos j) (c.amb (pos j)) (accFrom w pos st.fd j n (n - 1 - j))) ∧
    st.fd j = c.eval (pos j) (st.wres j) (fd0 j)

theorem invUp_step (c : Farm P S R) (w : Wake P S A R) (pos : Nat → P) (n : Nat) (fd0 : Nat → S)
    (wres0 : Nat → R) (k : Nat) (hk : k < n) (st : St S A R) (h : InvUp c w pos n fd0 wres0 k st) :
    InvUp c w pos n fd0 wres0 (k + 1) (stepUp c w pos n st (n - 1 - k)) := by
  generalize ho : n - 1 - k = oi
  have hoi : oi + k + 1 = n := by omega
  have hev : ∃ st1 : St S A R, (if oi + 1 < n then evalAt c w pos oi st else st) = st1 ∧
      (∀ j, j ≠ oi → st1.fd j = st.fd j ∧ st1.wres j = st.wres j) ∧ st1.wd = st.wd ∧
      (oi + 1 < n → st1.wres oi = c.plus (wres0 oi) (w.fin (pos oi) (c.amb (pos oi)) (accFrom w pos st.fd oi n k)) ∧
        st1.fd oi = c.eval (pos oi) (st1.wres oi) (fd0 oi)) ∧
      (¬ oi + 1 < n → st1.fd oi = st.fd oi ∧ st1.wres oi = st.wres oi) := by
    by_cases h0 : oi + 1 < n
    · refine ⟨_, rfl, ?_, ?_, ?_, fun hx => absurd h0 hx⟩
      · intro j hj
        simp only [if_pos h0, evalAt]
        exact ⟨upd_ne _ _ hj, upd_ne _ _ hj⟩
      · simp [if_pos h0, evalAt]
      · intro _
        simp only [if_pos h0, evalAt, upd_same]
        rw [(h.lt oi (by omega)).2, (h.lt oi (by omega)).1, h.wd oi (by omega), show min (n - 1 - oi) k = k by omega]
        exact ⟨rfl, rfl⟩
    · refine ⟨st, by simp [h0], fun _ _ => ⟨rfl, rfl⟩, rfl, fun hx => absurd hx h0, fun _ => ⟨rfl, rfl⟩⟩
  obtain ⟨st1, he, hne, hwd, hpos, hzero⟩ := hev
  have hfin : ∃ st2 : St S A R, stepUp c w pos n st oi = st2 ∧ st2.fd = st1.fd ∧ st2.wres = st1.wres ∧
      (∀ j, j < n → st2.wd j = if j < oi then w.add (pos oi) (st1.fd oi) (pos j) (st1.wd j) else st1.wd j) := by
    refine ⟨_, rfl, ?_, ?_, ?_⟩
    · simp only [stepUp, he]; split <;> rfl
    · simp only [stepUp, he]; split <;> rfl
    · intro j hj
      simp only [stepUp, he]
      by_cases hkn : oi > 0
      · simp only [if_pos hkn, contribAt]
        by_cases hkj : j < oi <;> simp [hkj]
      · have : ¬ j < oi := by omega
        simp [hkn, this]
  obtain ⟨st2, h2, hfd, hwres, hwd2⟩ := hfin
  rw [h2]
  have hcong : ∀ j m, m ≤ k → accFrom w pos st2.fd j n m = accFrom w pos st.fd j n m := by
    intro j m hm
    apply accFrom_congr (hk := by omega)
    intro i hi _
    rw [hfd]; exact (hne i (by omega)).1
  refine ⟨?_, ?_, ?_, ?_, ?_⟩
  · intro j hj
    rw [hfd, hwres, (hne j (by omega)).1, (hne j (by omega)).2]
    exact h.lt j (by omega)
  · intro j hj
    rw [hfd, hwres, (hne j (by omega)).1, (hne j (by omega)).2]
    exact h.out j hj
  · rw [hfd, hwres]
    by_cases h0 : oi + 1 < n
    · rw [(hne (n - 1) (by omega)).1, (hne (n - 1) (by omega)).2]; exact h.last
    · have : oi = n - 1 := by omega
      rw [← this, (hzero h0).1, (hzero h0).2, this]; exact h.last
  · intro j hj
    rw [hwd2 j hj, hwd, h.wd j hj]
    by_cases hkj : j < oi
    · rw [if_pos hkj, show min (n - 1 - j) (k + 1) = k + 1 by omega, show min (n - 1 - j) k = k by omega, accFrom,
        hcong j k (Nat.le_refl _), hfd, ho]
    · rw [if_neg hkj, show min (n - 1 - j) (k + 1) = min (n - 1 - j) k by omega, hcong j _ (by omega)]
  · intro j hj hjn
    rw [hcong j (n - 1 - j) (by omega), hfd, hwres]
    by_cases hjk : j = oi
    · subst hjk
      rw [show n - 1 - j = k by omega]; exact hpos hjn
    · rw [(hne j hjk).1, (hne j hjk).2]
      exact h.ge j (by omega) hjn

theorem range_reverse_take (n : Nat) : (List.range n).reverse = (List.range n).map (fun k => n - 1 - k) := by
  apply List.ext_getElem
  · simp
  · intro i h1 h2
    simp

theorem invUp_fold (c : Farm P S R) (w : Wake P S A R) (pos : Nat → P) (n : Nat) (fd0 : Nat → S)
    (wres0 : Nat → R) :
    InvUp c w pos n fd0 wres0 n
      ((List.range n).reverse.foldl (stepUp c w pos n) { fd := fd0, wres := wres0, wd := fun j => w.acc0 (pos j) }) := by
  rw [range_reverse_take]
  have : ∀ k, k ≤ n → InvUp c w pos n fd0 wres0 k
      (((List.range k).map (fun k => n - 1 - k)).foldl (stepUp c w pos n)
        { fd := fd0, wres := wres0, wd := fun j => w.acc0 (pos j) }) := by
    intro k
    induction k with
    | zero =>
      intro _
      refine ⟨fun _ _ => ⟨rfl, rfl⟩, fun _ _ => ⟨rfl, rfl⟩, ⟨rfl, rfl⟩, ?_, by omega⟩
      intro j _
      simp [accFrom]
    | succ k ih =>
      intro hk
      rw [List.range_succ, List.map_append, List.foldl_append]
      exact invUp_step c w pos n fd0 wres0 k (by omega) _ (ih (by omega))
  exact this n (Nat.le_refl _)

/-- sweep deltas: target `j` sees all sources but itself, in increasing order -/
theorem sweepDeltas_eq (w : Wake P S A R) (pos : Nat → P) (n : Nat) (fd : Nat → S) (j : Nat) (hj : j < n) :
    sweepDeltas w pos n fd j =
      ((List.range n).filter (fun i => i ≠ j)).foldl (fun a i => w.add (pos i) (fd i) (pos j) a) (w.acc0 (pos j)) := by
  have key : ∀ k, k ≤ n → ((List.range k).foldl
    (fun wd oi =>
      let wd := if oi > 0 then
          (fun j => if j < oi then w.add (pos oi) (fd oi) (pos j) (wd j) else wd j) else wd
      if oi + 1 < n then
          (fun j => if oi + 1 ≤ j ∧ j < n then w.add (pos oi) (fd oi) (pos j) (wd j) else wd j) else wd)
    (fun j => w.acc0 (pos j))) j =
      ((List.range k).filter (fun i => i ≠ j)).foldl (fun a i => w.add (pos i) (fd i) (pos j) a) (w.acc0 (pos j)) := by
    intro k
    induction k with
    | zero => intro _; rfl
    | succ k ih =>
      intro hk
      rw [List.range_succ, List.foldl_append, List.filter_append, List.foldl_append, ← ih (by omega)]
      simp only [List.foldl_cons, List.foldl_nil]
      generalize (List.range k).foldl _ _ = wd0
      by_cases hkj : k = j
      · subst hkj
        have h1 : ¬ k < k := by omega
        have h2 : ¬ (k + 1 ≤ k) := by omega
        by_cases h0 : k > 0 <;> by_cases hn : k + 1 < n <;> simp [h0, hn, h2]
      · simp only [List.filter_cons, List.filter_nil]
        rcases Nat.lt_or_gt_of_ne hkj with hlt | hgt
        · have h1 : ¬ j < k := by omega
          have h2 : k + 1 < n := by omega
          by_cases h0 : k > 0 <;> simp [h0, h1, h2, hkj, hj, Nat.succ_le_of_lt hlt]
        · have h1 : j < k := by omega
          have h0 : k > 0 := by omega
          have h2 : ¬ (k + 1 ≤ j) := by omega
          by_cases hn : k + 1 < n <;> simp [h0, h1, h2, hkj, hn]
  exact key n (Nat.le_refl _)

end Foxes.Downwind
