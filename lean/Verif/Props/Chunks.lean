import Verif.Proof.Chunks
/-
C01, C02: chunk sizes of `Engine.calc_chunk_sizes`.
-/
namespace Foxes.Props.Chunks
open Foxes.Chunks

/-- Engine settings a user can choose: at least one process, positive chunk sizes. -/
def ValidCfg (cfg : Cfg) : Prop :=
  1 ≤ cfg.nProcs ∧ (∀ c, cfg.chunkSizeStates = some c → 1 ≤ c) ∧
    (∀ c, cfg.chunkSizePoints = some c → 1 ≤ c)

/-- common core of the theorems below -/
theorem calc_ok (cfg : Cfg) (hv : ValidCfg cfg) (n nT : Nat) (hn : 1 ≤ n) :
    ∃ css cts, calcChunkSizes cfg n nT = .ok (css, cts) ∧
      css.sum = n ∧ cts.sum = nT ∧ css ≠ [] ∧ cts ≠ [] ∧ (∀ c ∈ css, 1 ≤ c) ∧
      (1 ≤ nT → ∀ c ∈ cts, 1 ≤ c) ∧
      (∀ r, cfg.chunkSizeStates = some r → ∀ c ∈ css, c ≤ r + 1) ∧
      (1 < nT → ∀ r, cfg.chunkSizePoints = some r → ∀ c ∈ cts, c ≤ r + 1) ∧
      (∃ b, ∀ c ∈ css, c = b ∨ c = b + 1) ∧ (∃ b, ∀ c ∈ cts, c = b ∨ c = b + 1) := by
  obtain ⟨hp, hcs, hcp⟩ := hv
  obtain ⟨ks, cs, he, hg, hb, hnone⟩ := statesChunks_good cfg n hn hp hcs
  have fin : ∀ k c : Nat, Good n k c → (fillChunks n k c).sum = n ∧ fillChunks n k c ≠ [] ∧
      (∀ x ∈ fillChunks n k c, 1 ≤ x ∧ x ≤ c + 1) := by
    intro k c g
    refine ⟨fillChunks_sum g.le (Nat.le_of_lt g.lt), ?_, ?_⟩
    · intro h0
      have := fillChunks_length n k c
      rw [h0] at this
      have := g.kpos
      simp at *; omega
    · intro x hx
      have := g.cpos
      rcases mem_fillChunks hx with h | ⟨h, _⟩ <;> omega
  by_cases hT : nT > 1
  · obtain ⟨ks', cs', kt, ct, ht, hg', hgt, hsame, hle⟩ :=
      targetsChunks_good cfg n nT ks cs hT hp hcp hg hnone
    have hsumT := fillChunks_sum hgt.le (Nat.le_of_lt hgt.lt)
    obtain ⟨f1, f2, f3⟩ := fin ks' cs' hg'
    refine ⟨fillChunks n ks' cs', fillChunks nT kt ct, ?_, f1, hsumT, f2, ?_, fun c hc => (f3 c hc).1,
      ?_, ?_, ?_, ⟨cs', fun c hc => (mem_fillChunks hc).imp id And.left⟩,
      ⟨ct, fun c hc => (mem_fillChunks hc).imp id And.left⟩⟩
    · simp only [calcChunkSizes, he, bind, Except.bind, if_pos hT, ht, hsumT, if_true, pure, Except.pure, f1]
    · intro h0
      have := fillChunks_length nT kt ct
      rw [h0] at this
      have := hgt.kpos
      simp at *; omega
    · intro _ c hc
      have := hgt.cpos
      rcases mem_fillChunks hc with h | ⟨h, _⟩ <;> omega
    · intro r hr c hc
      have := (hb r hr).1
      have := (hsame r hr).2
      have := (f3 c hc).2
      omega
    · intro _ r hr c hc
      have := hle r hr
      rcases mem_fillChunks hc with h | ⟨h, _⟩ <;> omega
  · obtain ⟨f1, f2, f3⟩ := fin ks cs hg
    refine ⟨fillChunks n ks cs, [nT], ?_, f1, by simp, f2, by simp, fun c hc => (f3 c hc).1, ?_, ?_, ?_,
      ⟨cs, fun c hc => (mem_fillChunks hc).imp id And.left⟩, ⟨nT, by simp⟩⟩
    · simp only [calcChunkSizes, he, bind, Except.bind, if_neg hT, pure, Except.pure, f1, if_true]
    · intro h c hc; simp at hc; omega
    · intro r hr c hc
      have := (hb r hr).1
      have := (f3 c hc).2
      omega
    · intro h; omega

/-- **C01.** For every valid engine configuration, `n ≥ 1` states and any number of targets
`calc_chunk_sizes` returns normally (neither assertion fires, nothing divides by zero, the loop
terminates), the states chunks are all non-empty and sum to `n`, the target chunks sum to `nT` and
are all non-empty if there is a target. -/
theorem C01_chunk_sizes_partition (cfg : Cfg) (hv : ValidCfg cfg) (n nT : Nat) (hn : 1 ≤ n) :
    ∃ css cts, calcChunkSizes cfg n nT = .ok (css, cts) ∧
      css.sum = n ∧ (∀ c ∈ css, 1 ≤ c) ∧
      cts.sum = nT ∧ (1 ≤ nT → ∀ c ∈ cts, 1 ≤ c) := by
  obtain ⟨css, cts, h, h1, h2, _, _, h3, h4, _⟩ := calc_ok cfg hv n nT hn
  exact ⟨css, cts, h, h1, h3, h2, h4⟩

example : ValidCfg ⟨some 2, none, 3⟩ ∧ calcChunkSizes ⟨some 2, none, 3⟩ 7 5 = .ok ([2, 2, 3], [5]) := by
  refine ⟨⟨by decide, ?_, ?_⟩, ?_⟩ <;> simp [calcChunkSizes, statesChunks, targetsChunks, idiv, bind,
    Except.bind, pure, Except.pure, fillChunks, bumpLast, List.replicate]

/-- **C01 (balance).** The work is balanced: any two states chunks, and any two target chunks,
differ in size by at most one. -/
theorem C01_chunk_sizes_balanced (cfg : Cfg) (hv : ValidCfg cfg) (n nT : Nat) (hn : 1 ≤ n)
    (css cts : List Nat) (h : calcChunkSizes cfg n nT = .ok (css, cts)) :
    (∀ a ∈ css, ∀ b ∈ css, a ≤ b + 1) ∧ (∀ a ∈ cts, ∀ b ∈ cts, a ≤ b + 1) := by
  obtain ⟨css', cts', h', _, _, _, _, _, _, _, _, ⟨b1, h1⟩, ⟨b2, h2⟩⟩ := calc_ok cfg hv n nT hn
  rw [h] at h'
  cases h'
  constructor
  · intro a ha b hb
    have := h1 a ha; have := h1 b hb; omega
  · intro a ha b hb
    have := h2 a ha; have := h2 b hb; omega

/-- C01, error branch: zero states with an explicit states chunk size divide by zero
(engine.py:273-274). -/
theorem C01_zero_states_raises (cfg : Cfg) (c : Nat) (hc : cfg.chunkSizeStates = some c) (nT : Nat) :
    calcChunkSizes cfg 0 nT = .error .zeroDivision := by
  simp [calcChunkSizes, statesChunks, hc, idiv, bind, Except.bind]

/-- **C02 (as stated: false).** An explicitly requested chunk size can be exceeded: 7 states with
`chunk_size_states=2` give the chunks 2, 2, 3. -/
theorem C02_chunk_size_exceeded :
    ¬ ∀ (cfg : Cfg) (r n : Nat), ValidCfg cfg → cfg.chunkSizeStates = some r → 1 ≤ n →
      ∀ css cts, calcChunkSizes cfg n 0 = .ok (css, cts) → ∀ c ∈ css, c ≤ r := by
  intro h
  have hv : ValidCfg ⟨some 2, none, 1⟩ := by
    refine ⟨by decide, ?_, ?_⟩ <;> simp
  have := h ⟨some 2, none, 1⟩ 2 7 hv rfl (by decide) [2, 2, 3] [0]
    (by simp [calcChunkSizes, statesChunks, idiv, bind, Except.bind, pure, Except.pure, fillChunks,
          bumpLast, List.replicate]) 3 (by simp)
  omega

/-- **C02 (partial).** The strongest uniform bound: a chunk exceeds the requested size by at most
one, for states and for targets. -/
theorem C02_chunk_size_bound_partial (cfg : Cfg) (hv : ValidCfg cfg) (n nT : Nat) (hn : 1 ≤ n)
    (css cts : List Nat) (h : calcChunkSizes cfg n nT = .ok (css, cts)) :
    (∀ r, cfg.chunkSizeStates = some r → ∀ c ∈ css, c ≤ r + 1) ∧
    (1 < nT → ∀ r, cfg.chunkSizePoints = some r → ∀ c ∈ cts, c ≤ r + 1) := by
  obtain ⟨css', cts', h', _, _, _, _, _, _, h7, h8, _⟩ := calc_ok cfg hv n nT hn
  rw [h] at h'
  cases h'
  exact ⟨h7, h8⟩

end Foxes.Props.Chunks
