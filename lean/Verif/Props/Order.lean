import Verif.Model.Order
import Verif.Props.Numbering
import Mathlib.Tactic.Ring
import Mathlib.Tactic.Linarith
import Mathlib.Tactic.FieldSimp
import Mathlib.Algebra.Order.Ring.Rat
/- C13: the calculation order is sorted along the wind. -/
namespace Foxes.Props.Order
open Foxes.Order

variable {K : Type} [Field K] [LinearOrder K] [IsStrictOrderedRing K]

theorem argsort_perm (n : Nat) (key : Nat → K) : (argsort n key).Perm (List.range n) := List.perm_insertionSort _ _

theorem argsort_sorted (n : Nat) (key : Nat → K) : (argsort n key).Pairwise (fun i j => key i ≤ key j) := by
  haveI : Std.Total (fun i j => key i ≤ key j) := ⟨fun _ _ => le_total _ _⟩
  haveI : IsTrans Nat (fun i j => key i ≤ key j) := ⟨fun _ _ _ => le_trans⟩
  exact List.pairwise_insertionSort _ _

/-- **C13 (permutation, sorted).** The order contains every turbine exactly once, and is sorted by the projection onto
the mean wind vector. -/
theorem C13_order_perm_sorted (n : Nat) (xy d : Nat → K × K) :
    (calcOrder n xy d).Perm (List.range n) ∧
    (calcOrder n xy d).Pairwise (fun i j => dot (xy i) (meanDir n d) ≤ dot (xy j) (meanDir n d)) :=
  ⟨argsort_perm n _, argsort_sorted n _⟩

theorem meanDir_const (n : Nat) (hn : 0 < n) (d : Nat → K × K) (e : K × K) (hd : ∀ t, t < n → d t = e) :
    meanDir n d = e := by
  have hs : ∀ (f : K × K → K), ((List.range n).map (fun t => f (d t))).sum = n * f e := by
    intro f
    have : (List.range n).map (fun t => f (d t)) = List.replicate n (f e) := by
      rw [List.eq_replicate_iff]
      refine ⟨by simp, ?_⟩
      intro b hb
      obtain ⟨t, ht, rfl⟩ := List.mem_map.1 hb
      rw [hd t (List.mem_range.1 ht)]
    rw [this, List.sum_replicate, nsmul_eq_mul]
  have hn' : (n : K) ≠ 0 := by exact_mod_cast (show n ≠ 0 by omega)
  unfold meanDir
  rw [hs (fun u => u.1), hs (fun u => u.2), mul_div_cancel_left₀ _ hn', mul_div_cancel_left₀ _ hn']

/-- **C13.** If all turbines see the same wind direction, no turbine is evaluated before one that lies
strictly upstream of it: if `i` comes before `j` in the order, then `i` does not lie downstream of `j` in
the wake coordinates of `j` (so the contribution of `j` to `i`, which the Downwind loop never makes, would
be an upstream one). -/
theorem C13_no_turbine_before_its_upstream (n : Nat) (xy d : Nat → K × K) (e : K × K)
    (hd : ∀ t, t < n → d t = e) :
    (calcOrder n xy d).Pairwise (fun i j => wakeX xy d j (xy i) ≤ 0) := by
  rcases Nat.eq_zero_or_pos n with h0 | hn
  · subst h0; simp [calcOrder, argsort]
  obtain ⟨hp, hs⟩ := C13_order_perm_sorted n xy d
  rw [meanDir_const n hn d e hd] at hs
  refine hs.imp_of_mem ?_
  intro i j _ hj h
  have hjn : j < n := List.mem_range.1 (hp.mem_iff.1 hj)
  unfold wakeX
  rw [hd j hjn]
  unfold dot at *
  nlinarith [h]

/-- **C13, as used by C14.** The calculated order meets the requirement of `C14_numbering_invariant`. -/
theorem C13_sorted_order {P : Type} (x : P → K) (n : Nat) (a : Nat → P) :
    Numbering.SortedOrder x n a (fun p => (argsort n (fun t => x (a t))).getD p 0) := by
  have hperm := argsort_perm n (fun t => x (a t))
  have hlen : (argsort n (fun t => x (a t))).length = n := by simpa using hperm.length_eq
  refine ⟨?_, ?_⟩
  · unfold Downwind.IsOrder
    have : (List.range n).map (fun p => (argsort n (fun t => x (a t))).getD p 0) = argsort n (fun t => x (a t)) := by
      apply List.ext_getElem
      · simp [hlen]
      · intro i h1 h2
        simp [List.getElem?_eq_getElem h2]
    rw [this]; exact hperm
  · intro p q hpq hq
    have hs := argsort_sorted n (fun t => x (a t))
    rw [List.pairwise_iff_getElem] at hs
    have := hs p q (by omega) (by omega) hpq
    simpa [List.getElem?_eq_getElem (show p < (argsort n (fun t => x (a t))).length by omega),
      List.getElem?_eq_getElem (show q < (argsort n (fun t => x (a t))).length by omega)] using this

example : calcOrder (K := Rat) 3 (fun t => [(5, 0), (0, 1), (2, 7)].getD t (0, 0)) (fun _ => (1, 0)) = [1, 2, 0] := by
  decide +kernel

/-- Three turbines, wind from the west at turbine 0 and from the south at the others. -/
def exXY : Nat → Rat × Rat := fun t => [(0, 6/10), (1, 0), (50, 50)].getD t (0, 0)
def exDir : Nat → Rat × Rat := fun t => [(1, 0), (0, 1), (0, 1)].getD t (0, 0)

/-- **C13 (limits of the property).** With different wind directions at the turbines the order follows the mean
vector: turbine 1 is evaluated before turbine 0 although it lies one length unit downstream of turbine 0,
whose wake it therefore never feels in the Downwind algorithm. -/
theorem C13_inhomogeneous_counterexample :
    calcOrder 3 exXY exDir = [1, 0, 2] ∧ wakeX exXY exDir 0 (exXY 1) = 1 := by
  constructor <;> decide +kernel

end Foxes.Props.Order
