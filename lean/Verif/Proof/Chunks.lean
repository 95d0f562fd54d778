import Verif.Model.Chunks
/- Helper lemmas for `Verif.Props.Chunks`. -/
namespace Foxes.Chunks

theorem bumpLast_length (e : Nat) (xs : List Nat) : (bumpLast e xs).length = xs.length := by
  simp only [bumpLast, List.length_append, List.length_take, List.length_map, List.length_drop]
  omega

theorem sum_map_succ (xs : List Nat) : (xs.map (· + 1)).sum = xs.sum + xs.length := by
  induction xs with
  | nil => rfl
  | cons x xs ih => simp only [List.map_cons, List.sum_cons, ih, List.length_cons]; omega

theorem bumpLast_sum (e : Nat) (xs : List Nat) :
    (bumpLast e xs).sum = xs.sum + min e xs.length := by
  have h := List.take_append_drop (xs.length - e) xs
  have h2 : xs.sum = (xs.take (xs.length - e)).sum + (xs.drop (xs.length - e)).sum :=
    (congrArg List.sum h).symm.trans List.sum_append
  rw [bumpLast, List.sum_append, sum_map_succ, List.length_drop, h2]
  omega

theorem mem_bumpLast {e : Nat} {xs : List Nat} {x : Nat} (h : x ∈ bumpLast e xs) :
    x ∈ xs ∨ ∃ y ∈ xs, x = y + 1 := by
  simp only [bumpLast, List.mem_append, List.mem_map] at h
  rcases h with h | ⟨y, hy, rfl⟩
  · exact .inl (List.mem_of_mem_take h)
  · exact .inr ⟨y, List.mem_of_mem_drop hy, rfl⟩

/-- What the two chunk-number computations establish before the fill step. -/
structure Good (n k c : Nat) : Prop where
  kpos : 1 ≤ k
  cpos : 1 ≤ c
  le : k * c ≤ n
  lt : n < k * c + k

theorem fillChunks_length (n k c : Nat) : (fillChunks n k c).length = k := by
  unfold fillChunks; split <;> simp [bumpLast_length]

theorem fillChunks_sum {n k c : Nat} (h1 : k * c ≤ n) (h2 : n ≤ k * c + k) :
    (fillChunks n k c).sum = n := by
  unfold fillChunks
  split
  · rw [bumpLast_sum]; simp; omega
  · simp; omega

theorem mem_fillChunks {n k c x : Nat} (h : x ∈ fillChunks n k c) :
    x = c ∨ (x = c + 1 ∧ k * c < n) := by
  unfold fillChunks at h
  split at h
  · rename_i hlt
    rcases mem_bumpLast h with h | ⟨y, hy, rfl⟩
    · exact .inl (List.eq_of_mem_replicate h)
    · exact .inr ⟨by rw [List.eq_of_mem_replicate hy], by omega⟩
  · exact .inl (List.eq_of_mem_replicate h)

theorem good_div {n k : Nat} (hk : 1 ≤ k) (h : k ≤ n) : Good n k (n / k) where
  kpos := hk
  cpos := (Nat.one_le_div_iff hk).2 h
  le := Nat.mul_div_le n k
  lt := by
    have := Nat.lt_mul_div_succ n (show 0 < k from hk)
    rw [Nat.mul_add] at this; omega

/-- the adjustment `k = max (n / c) 1; if n / k > c then (k+1, n/(k+1)) else (k, c)` -/
theorem good_adjust {n c : Nat} (hc : 1 ≤ c) (hn : c ≤ n) :
    let k := max (n / c) 1
    (n / k > c → Good n (k + 1) (n / (k + 1)) ∧ n / (k + 1) + 1 ≤ c)
    ∧ (¬ n / k > c → Good n k c) := by
  intro k
  have hk1 : 1 ≤ n / c := (Nat.one_le_div_iff hc).2 hn
  have hk : k = n / c := by omega
  have hkc : k * c ≤ n := by rw [hk]; exact Nat.div_mul_le_self n c
  have hlt : n < (k + 1) * c := by
    rw [hk, Nat.mul_comm]; exact Nat.lt_mul_div_succ n hc
  have hkpos : 1 ≤ k := by omega
  constructor
  · intro h
    have h1 : k * (c + 1) ≤ n := by
      rw [Nat.mul_comm]; exact (Nat.le_div_iff_mul_le hkpos).1 h
    have hd : n / (k + 1) < c := (Nat.div_lt_iff_lt_mul (by omega)).2 (by rw [Nat.mul_comm]; exact hlt)
    have hle : k + 1 ≤ n := by
      rw [Nat.mul_add] at h1
      have : 1 ≤ k * c := Nat.mul_pos hkpos hc
      omega
    exact ⟨good_div (by omega) hle, hd⟩
  · intro h
    refine ⟨hkpos, hc, hkc, ?_⟩
    have : n / k < c + 1 := by omega
    have := (Nat.div_lt_iff_lt_mul hkpos).1 this
    rw [Nat.add_mul] at this
    rw [Nat.mul_comm k c]; omega

theorem statesChunks_good (cfg : Cfg) (n : Nat) (hn : 1 ≤ n) (hp : 1 ≤ cfg.nProcs)
    (hc : ∀ c, cfg.chunkSizeStates = some c → 1 ≤ c) :
    ∃ k c, statesChunks cfg n = .ok (k, c) ∧ Good n k c ∧
      (∀ r, cfg.chunkSizeStates = some r → (c ≤ r ∧ (k * c < n → c + 1 ≤ r + 1))) ∧
      (cfg.chunkSizeStates = none → c = n / k ∧ k ≤ n) := by
  unfold statesChunks
  cases hcs : cfg.chunkSizeStates with
  | none =>
    simp only [idiv, show cfg.nProcs ≠ 0 by omega, if_false]
    refine ⟨_, _, rfl, ?_⟩
    by_cases hle : cfg.nProcs ≤ n
    · have h1 : max (n / cfg.nProcs) 1 = n / cfg.nProcs := by
        have := (Nat.one_le_div_iff hp).2 hle; omega
      have h2 : min cfg.nProcs n = cfg.nProcs := by omega
      rw [h1, h2]
      exact ⟨good_div hp hle, by simp, fun _ => ⟨rfl, hle⟩⟩
    · have h0 : n / cfg.nProcs = 0 := Nat.div_eq_of_lt (by omega)
      have h2 : min cfg.nProcs n = n := by omega
      have h3 : n / n = 1 := Nat.div_self hn
      rw [h0, h2, show max 0 1 = 1 from rfl]
      refine ⟨⟨hn, by omega, by omega, by omega⟩, by simp, fun _ => ⟨by omega, Nat.le_refl _⟩⟩
  | some r =>
    have hr := hc r hcs
    have hcpos : 1 ≤ min n r := by omega
    obtain ⟨ha, hb⟩ := good_adjust hcpos (Nat.min_le_left n r)
    simp only [idiv, show min n r ≠ 0 by omega, if_false, bind, Except.bind]
    have hk0 : max (n / min n r) 1 ≠ 0 := by omega
    simp only [hk0, if_false]
    by_cases h : n / max (n / min n r) 1 > min n r
    · rw [if_pos h]
      simp only [show max (n / min n r) 1 + 1 ≠ 0 by omega, if_false]
      obtain ⟨hg, hlt⟩ := ha h
      refine ⟨_, _, rfl, hg, ?_, by simp⟩
      intro r' hr'
      cases hr'
      refine ⟨by omega, fun _ => by omega⟩
    · rw [if_neg h]
      refine ⟨_, _, rfl, hb h, ?_, by simp⟩
      intro r' hr'
      cases hr'
      refine ⟨by omega, fun _ => by omega⟩

theorem shrinkStates_good (n nT ct : Nat) (hct : ct ≤ nT) :
    ∀ k c, 1 ≤ k → k ≤ n → c = n / k → Good n (shrinkStates n nT ct k c).1 (shrinkStates n nT ct k c).2 := by
  intro k c
  induction k, c using shrinkStates.induct n nT ct with
  | case1 k c h ih =>
    intro hk hkn hc
    rw [shrinkStates, if_pos h]
    have hc2 : 2 ≤ c := by
      refine Nat.le_of_not_lt fun hlt => ?_
      have hle : c ≤ 1 := by omega
      have : c * ct ≤ 1 * ct := Nat.mul_le_mul_right ct hle
      omega
    have hk2 : k + 1 ≤ n := by
      have h1 : k * c ≤ n := by rw [hc]; exact Nat.mul_div_le n k
      have h2 : k * 2 ≤ k * c := Nat.mul_le_mul_left k hc2
      omega
    exact ih (by omega) hk2 rfl
  | case2 k c h =>
    intro hk hkn hc
    rw [shrinkStates, if_neg h, hc]
    exact good_div hk hkn

theorem targetsChunks_good (cfg : Cfg) (n nT ks cs : Nat) (hnT : 1 < nT) (hp : 1 ≤ cfg.nProcs)
    (hcp : ∀ c, cfg.chunkSizePoints = some c → 1 ≤ c)
    (hg : Good n ks cs)
    (hnone : cfg.chunkSizeStates = none → cs = n / ks ∧ ks ≤ n) :
    ∃ ks' cs' kt ct, targetsChunks cfg n nT ks cs = .ok ((ks', cs'), (kt, ct)) ∧
      Good n ks' cs' ∧ Good nT kt ct ∧
      (∀ r, cfg.chunkSizeStates = some r → ks' = ks ∧ cs' = cs) ∧
      (∀ r, cfg.chunkSizePoints = some r → ct ≤ r) := by
  unfold targetsChunks
  cases hpt : cfg.chunkSizePoints with
  | none =>
    by_cases hsm : nT < max n 1000
    · simp only [if_pos hsm, pure, Except.pure, bind, Except.bind, idiv, Nat.one_ne_zero, if_false,
        Nat.div_one, gt_iff_lt, Nat.lt_irrefl]
      exact ⟨_, _, _, _, rfl, hg, ⟨by omega, by omega, by omega, by omega⟩, fun _ _ => ⟨rfl, rfl⟩, by simp⟩
    · have hne : cfg.nProcs ≠ 0 := by omega
      have hgt : Good nT (min cfg.nProcs nT) (max (nT / cfg.nProcs) 1) ∧
          ¬ nT / min cfg.nProcs nT > max (nT / cfg.nProcs) 1 := by
        by_cases hle : cfg.nProcs ≤ nT
        · have h1 := (Nat.one_le_div_iff hp).2 hle
          rw [show max (nT / cfg.nProcs) 1 = nT / cfg.nProcs by omega,
            show min cfg.nProcs nT = cfg.nProcs by omega]
          exact ⟨good_div hp hle, by omega⟩
        · have h0 : nT / cfg.nProcs = 0 := Nat.div_eq_of_lt (by omega)
          rw [h0, show min cfg.nProcs nT = nT by omega, Nat.div_self (by omega : 0 < nT), show max 0 1 = 1 from rfl]
          exact ⟨⟨by omega, by omega, by omega, by omega⟩, by omega⟩
      have hkt : min cfg.nProcs nT ≠ 0 := by omega
      simp only [if_neg hsm, bind, Except.bind, idiv, hne, if_false]
      have hct : max (nT / cfg.nProcs) 1 ≤ nT := by
        have := Nat.div_le_self nT cfg.nProcs; omega
      split
      · rename_i hcond
        obtain ⟨hn1, hk1⟩ := hcond
        simp only [pure, Except.pure, hkt, if_false]
        rw [if_neg hgt.2]
        have hn' := hnone (by simpa using hn1)
        refine ⟨_, _, _, _, rfl, shrinkStates_good n nT _ hct ks cs (by omega) hn'.2 hn'.1, hgt.1, ?_, by simp⟩
        intro r hr; simp [hr] at hn1
      · simp only [pure, Except.pure, hkt, if_false]
        rw [if_neg hgt.2]
        exact ⟨_, _, _, _, rfl, hg, hgt.1, fun _ _ => ⟨rfl, rfl⟩, by simp⟩
  | some cp =>
    have hr := hcp cp hpt
    have hcpos : 1 ≤ min nT cp := by omega
    obtain ⟨ha, hb⟩ := good_adjust hcpos (Nat.min_le_left nT cp)
    simp only [idiv, show min nT cp ≠ 0 by omega, if_false, bind, Except.bind, pure, Except.pure]
    have hk0 : max (nT / min nT cp) 1 ≠ 0 := by omega
    simp only [hk0, if_false]
    by_cases h : nT / max (nT / min nT cp) 1 > min nT cp
    · rw [if_pos h]
      simp only [show max (nT / min nT cp) 1 + 1 ≠ 0 by omega, if_false]
      obtain ⟨hg', hlt⟩ := ha h
      refine ⟨_, _, _, _, rfl, hg, hg', fun _ _ => ⟨rfl, rfl⟩, ?_⟩
      intro r' hr'; cases hr'; omega
    · rw [if_neg h]
      refine ⟨_, _, _, _, rfl, hg, hb h, fun _ _ => ⟨rfl, rfl⟩, ?_⟩
      intro r' hr'; cases hr'; omega

end Foxes.Chunks
