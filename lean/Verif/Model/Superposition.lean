import Mathlib.Analysis.SpecialFunctions.Pow.Real
/-
Model of the wake superposition models, foxes/models/wake_superpositions/*.py, over the real numbers.
`ι`: the targets (state-target-point combinations of one wake delta array).
Simplification: real numbers instead of floating point numbers.
-/
namespace Foxes.Superposition

noncomputable section

/-- the superposition models that act target by target -/
inductive Kind
  | wsLinear | wsLinearLocal           -- ws_linear.py
  | wsQuadratic | wsQuadraticLocal     -- ws_quadratic.py
  | wsPow (p : ℝ) | wsPowLocal (p : ℝ) -- ws_pow.py
  | wsMax | wsMaxLocal                 -- ws_max.py
  | tiLinear | tiQuadratic | tiPow (p : ℝ) | tiMax  -- ti_*.py

/-- the effect of `add_wake` on a selected target: `acc` the entry of `wake_delta`, `scale` the (ambient) REWS of the
source turbine, `w` the wake model result -/
def add : Kind → ℝ → ℝ → ℝ → ℝ
  | .wsLinear, acc, scale, w => acc + scale * w                    -- ws_linear.py:134
  | .wsLinearLocal, acc, _, w => acc + w                           -- ws_linear.py:290
  | .wsQuadratic, acc, scale, w => acc + (scale * w) ^ 2           -- ws_quadratic.py:134
  | .wsQuadraticLocal, acc, _, w => acc + w ^ 2                    -- ws_quadratic.py:290
  | .wsPow p, acc, scale, w => acc + |scale * w| ^ p               -- ws_pow.py:139
  | .wsPowLocal p, acc, _, w => acc + |w| ^ p                      -- ws_pow.py:301
  | .wsMax, acc, scale, w => max acc |scale * w|                   -- ws_max.py:134-137
  | .wsMaxLocal, acc, _, w => max acc |w|                          -- ws_max.py:293-296
  | .tiLinear, acc, _, w => acc + w                                -- ti_linear.py:90
  | .tiQuadratic, acc, _, w => acc + w ^ 2                         -- ti_quadratic.py:90
  | .tiPow p, acc, _, w => acc + w ^ p                             -- ti_pow.py:97 (for w ≥ 0)
  | .tiMax, acc, _, w => max w acc                                 -- ti_max.py:90

/-- `superp_to_amb` of the TI models -/
inductive ToAmb
  | linear | quadratic

/-- the clipping at the end of `calc_final_wake_delta` (ws_linear.py:177-181 and the same lines in the other wind speed
superpositions) -/
def clip (low high : Option ℝ) (amb w : ℝ) : ℝ :=
  let w := match low with | none => w | some l => max w (l - amb)
  match high with | none => w | some h => min w (h - amb)

/-- `calc_final_wake_delta` before clipping -/
def raw : Kind → ToAmb → ℝ → ℝ → ℝ
  | .wsLinear, _, _, d => d                                        -- ws_linear.py:176
  | .wsLinearLocal, _, amb, d => d * amb                           -- ws_linear.py:332
  | .wsQuadratic, _, _, d => -√d                                   -- ws_quadratic.py:176
  | .wsQuadraticLocal, _, amb, d => -√d * amb                      -- ws_quadratic.py:332
  | .wsPow p, _, _, d => -(d ^ (1 / p))                            -- ws_pow.py:181
  | .wsPowLocal p, _, amb, d => -(d ^ (1 / p)) * amb               -- ws_pow.py:343
  | .wsMax, _, _, d => -d                                          -- ws_max.py:179
  | .wsMaxLocal, _, amb, d => -d * amb                             -- ws_max.py:338
  | .tiLinear, .linear, _, d => d                                  -- ti_linear.py:132-133
  | .tiLinear, .quadratic, amb, d => √(d ^ 2 + amb ^ 2) - amb      -- ti_linear.py:136-137
  | .tiQuadratic, .linear, _, d => √d                              -- ti_quadratic.py:132-133
  | .tiQuadratic, .quadratic, amb, d => √(d + amb ^ 2) - amb       -- ti_quadratic.py:136-137
  | .tiPow p, .linear, _, d => d ^ (1 / p)                         -- ti_pow.py:139-140
  | .tiPow p, .quadratic, amb, d => √(d ^ (2 / p) + amb ^ 2) - amb -- ti_pow.py:143-144
  | .tiMax, .linear, _, d => d                                     -- ti_max.py:132-133
  | .tiMax, .quadratic, amb, d => √(d ^ 2 + amb ^ 2) - amb         -- ti_max.py:136-137

def isTI : Kind → Bool
  | .tiLinear | .tiQuadratic | .tiPow _ | .tiMax => true
  | _ => false

/-- `calc_final_wake_delta`: the TI models have no limits -/
def fin (k : Kind) (t : ToAmb) (low high : Option ℝ) (amb d : ℝ) : ℝ :=
  if isTI k then raw k t amb d else clip low high amb (raw k t amb d)

variable {ι : Type}

/-- One source turbine's contribution: for every target `none` (not in `st_sel`) or the wake model result, and the
source's `scale`. -/
structure Wake (ι : Type) where
  scale : ℝ
  w : ι → Option ℝ

/-- `wake_delta[st_sel] = …` -/
def addWake (k : Kind) (d : ι → ℝ) (c : Wake ι) : ι → ℝ :=
  fun i => match c.w i with | none => d i | some w => add k (d i) c.scale w

/-- all contributions, starting with zero wake deltas, then the final wake delta -/
def superpose (k : Kind) (t : ToAmb) (low high : Option ℝ) (amb : ι → ℝ) (l : List (Wake ι)) : ι → ℝ :=
  fun i => fin k t low high (amb i) (l.foldl (addWake k) (fun _ => 0) i)

open Classical in
/-- `WSProduct.add_wake` (ws_product.py:121-127): if all wake deltas are (almost) zero they are all set to 1 first -/
def addProduct (d : ι → ℝ) (c : Wake ι) : ι → ℝ :=
  let d := if ∀ i, |d i| < 1e-14 then (fun _ => 1) else d
  fun i => match c.w i with | none => d i | some w => d i * (1 + w)

/-- `WSProduct`: contributions, then `calc_final_wake_delta` (ws_product.py:167-172) -/
def superposeProduct (low high : Option ℝ) (amb : ι → ℝ) (l : List (Wake ι)) : ι → ℝ :=
  fun i => clip low high (amb i) (amb i * (l.foldl addProduct (fun _ => 0) i - 1))

end

end Foxes.Superposition
