/-
Model of `Engine.calc_chunk_sizes` (foxes/core/engine.py:249-318).

Simplification: Python computes `int(a / b)` in float64; here it is `a / b` on `Nat`
(the two agree for a < 2^53, see DESIGN.md). numpy integer arrays are `List Nat`.
-/
namespace Foxes.Chunks

/-- The exceptions `calc_chunk_sizes` can raise. -/
inductive Err
  | zeroDivision
  | assertStates
  | assertTargets
deriving DecidableEq, Repr

/-- The attributes of an engine the function reads (engine.py:60-65). -/
structure Cfg where
  chunkSizeStates : Option Nat
  chunkSizePoints : Option Nat
  nProcs : Nat
deriving DecidableEq, Repr

/-- Python's `int(a / b)`; raises on `b = 0`. -/
def idiv (a b : Nat) : Except Err Nat :=
  if b = 0 then .error .zeroDivision else .ok (a / b)

/-- Python slice update `arr[-extra:] += 1` for `extra > 0`
(engine.py:302-304, 312-314): the last `extra` entries, clamped to the length of the array. -/
def bumpLast (extra : Nat) (xs : List Nat) : List Nat :=
  xs.take (xs.length - extra) ++ (xs.drop (xs.length - extra)).map (· + 1)

/-- `np.full(k, c)` plus `extra = n - k*c; if extra > 0: arr[-extra:] += 1`
(engine.py:301-304 and 311-314). `Nat` subtraction models the `extra > 0` guard. -/
def fillChunks (n k c : Nat) : List Nat :=
  if n - k * c > 0 then bumpLast (n - k * c) (List.replicate k c) else List.replicate k c

/-- engine.py:268-277: initial number and size of the states chunks. -/
def statesChunks (cfg : Cfg) (n : Nat) : Except Err (Nat × Nat) :=
  match cfg.chunkSizeStates with
  | none => do
      let k := min cfg.nProcs n
      let c ← idiv n cfg.nProcs
      return (k, max c 1)
  | some cs => do
      let c := min n cs
      let k := max (← idiv n c) 1
      if (← idiv n k) > c then
        return (k + 1, ← idiv n (k + 1))
      else
        return (k, c)

/-- engine.py:290-292, the `while` loop: it only ever divides by `k + 1 > 0`. -/
def shrinkStates (n nT ct : Nat) (k c : Nat) : Nat × Nat :=
  if c * ct > nT then shrinkStates n nT ct (k + 1) (n / (k + 1)) else (k, c)
termination_by if c = 0 then 0 else n + 2 - k + 1
decreasing_by
  rename_i h
  have hc : c ≠ 0 := by rintro rfl; simp at h
  simp only [hc, if_false]
  split
  · omega
  · rename_i h2
    have : k + 1 ≤ n := by
      refine Nat.le_of_not_lt fun hlt => h2 (Nat.div_eq_of_lt hlt)
    omega

/-- engine.py:282-300: number and size of target chunks together with the (possibly changed)
number and size of the states chunks. Only called with `nT > 1`. -/
def targetsChunks (cfg : Cfg) (n nT : Nat) (ks cs : Nat) :
    Except Err ((Nat × Nat) × (Nat × Nat)) := do
  let r : (Nat × Nat) × (Nat × Nat) ←
    match cfg.chunkSizePoints with
    | none =>
        if nT < max n 1000 then
          pure ((ks, cs), (1, nT))
        else do
          let kt := min cfg.nProcs nT
          let ct := max (← idiv nT cfg.nProcs) 1
          if cfg.chunkSizeStates.isNone ∧ ks > 1 then
            pure (shrinkStates n nT ct ks cs, (kt, ct))
          else
            pure ((ks, cs), (kt, ct))
    | some cp => do
        let ct := min nT cp
        let kt := max (← idiv nT ct) 1
        pure ((ks, cs), (kt, ct))
  let (s, (kt, ct)) := r
  if (← idiv nT kt) > ct then
    return (s, (kt + 1, ← idiv nT (kt + 1)))
  else
    return (s, (kt, ct))

/-- `Engine.calc_chunk_sizes(n_states, n_targets)` (engine.py:249-318). -/
def calcChunkSizes (cfg : Cfg) (n nT : Nat) : Except Err (List Nat × List Nat) := do
  let (ks0, cs0) ← statesChunks cfg n
  let r : (Nat × Nat) × List Nat ←
    if nT > 1 then do
      let (s, (kt, ct)) ← targetsChunks cfg n nT ks0 cs0
      let tl := fillChunks nT kt ct
      if tl.sum = nT then pure (s, tl) else .error .assertTargets
    else pure ((ks0, cs0), [nT])
  let ((ks, cs), tl) := r
  let sl := fillChunks n ks cs
  if sl.sum = n then return (sl, tl) else .error .assertStates

end Foxes.Chunks
