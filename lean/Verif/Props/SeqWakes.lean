import Verif.Model.SeqWakes
import Verif.Props.Streamlines
import Mathlib.Algebra.BigOperators.Intervals
import Mathlib.Tactic.Ring
import Mathlib.Tactic.Linarith
import Mathlib.Tactic.FieldSimp
/-
C62: dynamic wakes of the sequential algorithm.
-/
namespace Foxes.Props.SeqWakes
open Foxes.SeqWakes Foxes.Frames Foxes.WindDir

noncomputable section
open scoped Classical

/-! ## Specification -/

/-- position after `k` time steps of a particle that leaves the rotor at state `s` and is carried by the horizontal wind of the states -/
def particle (E : Env) (s : ℕ) : ℕ → V3
  | 0 => E.hub s
  | k + 1 => (particle E s k).add (V3.smul (E.dt (s + k)) ⟨(E.wind (s + k) (particle E s k)).1, (E.wind (s + k) (particle E s k)).2, 0⟩)

/-- wind speed at a point -/
def speed (E : Env) (k : ℕ) (q : V3) : ℝ := √((E.wind k q).1 ^ 2 + (E.wind k q).2 ^ 2)

/-- every state up to `c` is evaluated, in this order, each of them at least once -/
def complete : ℕ → List ℕ → Prop
  | 0, cs => cs ≠ [] ∧ ∀ x ∈ cs, x = 0
  | c + 1, cs => ∃ as bs, cs = as ++ bs ∧ complete c as ∧ bs ≠ [] ∧ ∀ x ∈ bs, x = c + 1

/-- the traces at state `c` are those of the particles released so far -/
def isTraces (E : Env) (c : ℕ) (m : Traces) : Prop :=
  (∀ s ≤ c, m.p s = particle E s (c - s) ∧ m.v s = E.wind c (particle E s (c - s)) ∧
    m.l s = some (∑ k ∈ Finset.range (c - s), speed E (s + k) (particle E s k) * E.dt (s + k))) ∧
  ∀ s, c < s → m.l s = none

/-! ## Traces -/

lemma evals_append (E : Env) (as bs : List ℕ) (m : Traces) : evals E (as ++ bs) m = evals E bs (evals E as m) := by
  induction as generalizing m with
  | nil => rfl
  | cons a as ih => exact ih _

lemma update_done (E : Env) (c : ℕ) (m : Traces) (h : m.l c ≠ none) : update E c m = m := by
  unfold update
  cases h' : m.l c with
  | none => exact absurd h' h
  | some a => rfl

lemma update_l (E : Env) (c : ℕ) (m : Traces) : (update E c m).l c ≠ none := by
  cases h' : m.l c with
  | none => simp [update, h']
  | some a => rw [update_done E c m (by simp [h'])]; simp [h']

/-- Further evaluations at the same state (other wake models, other points) change nothing. -/
theorem C62_repeat (E : Env) (c : ℕ) (m : Traces) (cs : List ℕ) (h : ∀ x ∈ cs, x = c) : evals E (c :: cs) m = update E c m := by
  change evals E cs (update E c m) = _
  induction cs with
  | nil => rfl
  | cons a as ih =>
    obtain rfl : a = c := h a (by simp)
    change evals E as (update E a (update E a m)) = _
    rw [update_done E a _ (update_l E a m)]
    exact ih fun x hx => h x (by simp [hx])

lemma evals_const (E : Env) (c : ℕ) (m : Traces) (cs : List ℕ) (h0 : cs ≠ []) (h : ∀ x ∈ cs, x = c) : evals E cs m = update E c m := by
  cases cs with
  | nil => exact absurd rfl h0
  | cons a as =>
    obtain rfl : a = c := h a (by simp)
    exact C62_repeat E a m as fun x hx => h x (by simp [hx])

lemma norm_step (a b t : ℝ) (ht : 0 ≤ t) : (⟨a * t, b * t, 0⟩ : V3).norm = √(a ^ 2 + b ^ 2) * t := by
  unfold V3.norm
  simp only
  rw [show (a * t) ^ 2 + (b * t) ^ 2 + 0 ^ 2 = (a ^ 2 + b ^ 2) * t ^ 2 by ring, Real.sqrt_mul (by positivity), Real.sqrt_sq ht]

lemma traces_zero (E : Env) : isTraces E 0 (update E 0 init) := by
  constructor
  · intro s hs
    obtain rfl : s = 0 := by omega
    simp [update, init, particle]
  · intro s hs
    have h1 : ¬ s < 0 := by omega
    have h2 : s ≠ 0 := by omega
    simp [update, init, h2]

lemma traces_succ (E : Env) (hdt : ∀ k, 0 ≤ E.dt k) (c : ℕ) (m : Traces) (h : isTraces E c m) : isTraces E (c + 1) (update E (c + 1) m) := by
  have hn : m.l (c + 1) = none := h.2 _ (by omega)
  have hp : ∀ s ≤ c + 1, (update E (c + 1) m).p s = particle E s (c + 1 - s) := by
    intro s hs
    unfold update
    rw [hn]
    simp only
    rcases Nat.lt_or_ge s (c + 1) with hlt | hge
    · obtain ⟨e1, e2, -⟩ := h.1 s (by omega)
      rw [if_pos hlt, e1, e2]
      have e3 : c + 1 - s = (c - s) + 1 := by omega
      have e4 : s + (c - s) = c := by omega
      rw [e3, particle, e4]
      simp only [V3.smul, Nat.add_sub_cancel, mul_comm, zero_mul]
    · obtain rfl : s = c + 1 := by omega
      rw [if_neg (by omega), if_pos rfl, Nat.sub_self]
      rfl
  constructor
  · intro s hs
    refine ⟨hp s hs, ?_, ?_⟩
    · have : (update E (c + 1) m).v s = E.wind (c + 1) ((update E (c + 1) m).p s) := by
        unfold update
        rw [hn]
        simp only
        rw [if_pos hs]
      rw [this, hp s hs]
    · unfold update
      rw [hn]
      simp only
      rcases Nat.lt_or_ge s (c + 1) with hlt | hge
      · obtain ⟨e1, e2, e3⟩ := h.1 s (by omega)
        rw [if_pos hlt, e3, Option.map_some, norm_step _ _ _ (hdt _), e2]
        have e4 : c + 1 - s = (c - s) + 1 := by omega
        have e5 : s + (c - s) = c := by omega
        rw [e4, Finset.sum_range_succ, e5]
        rfl
      · obtain rfl : s = c + 1 := by omega
        rw [if_neg (by omega), if_pos rfl, Nat.sub_self]
        rfl
  · intro s hs
    unfold update
    rw [hn]
    simp only
    rw [if_neg (by omega), if_neg (by omega)]
    exact h.2 s (by omega)

/-- If every state is evaluated, the traces at state `c` are the particles that left the rotor at the states up to `c`, carried by the wind of the
states; the length of a trace is the length of its path, its velocity the wind at its place. -/
theorem C62_particles (E : Env) (hdt : ∀ k, 0 ≤ E.dt k) (c : ℕ) (cs : List ℕ) (h : complete c cs) : isTraces E c (evals E cs init) := by
  induction c generalizing cs with
  | zero =>
    rw [evals_const E 0 init cs h.1 h.2]
    exact traces_zero E
  | succ c ih =>
    obtain ⟨as, bs, rfl, ha, hb, hb'⟩ := h
    rw [evals_append, evals_const E (c + 1) _ bs hb hb']
    exact traces_succ E hdt c _ (ih as ha)

/-! ## Coordinates -/

lemma nearest_spec (c : ℕ) (m : Traces) (p : V3) : nearest c m p ≤ c ∧ ∀ s ≤ c, dist3D p (m.p (nearest c m p)) ≤ dist3D p (m.p s) := by
  obtain ⟨h1, h2⟩ := Foxes.Props.Streamlines.argmin_num (c + 1) (fun s => some (dist3D p (m.p s))) (by omega) (by simp)
  exact ⟨by unfold nearest; omega, fun s hs => by have := h2 s (by omega); simpa [nearest] using this⟩

/-- The wake coordinates belong to the nearest particle: x is the length of its path plus the distance ahead of it along the wind there, less than what
the wind covers in a time step; y is the lateral distance. -/
theorem C62_coordinates (E : Env) (hdt : ∀ k, 0 ≤ E.dt k) (c : ℕ) (cs : List ℕ) (h : complete c cs) (p : V3) :
    let r := getWakeCoos E c (evals E cs init) p
    let s := r.2.2
    let q := particle E s (c - s)
    let u := E.wind c q
    let step := if c < E.nDt then E.dt c else E.dt (E.nDt - 1)
    s ≤ c ∧ (∀ s' ≤ c, (p.sub q).norm ≤ (p.sub (particle E s' (c - s'))).norm) ∧ r.2.1.2 = p.z - (E.hub c).z ∧
    (r.2.1.1 ≠ none → ∃ a y, r.2.1.1 = some (some ((∑ k ∈ Finset.range (c - s), speed E (s + k) (particle E s k) * E.dt (s + k)) + a), y) ∧
      |a| < speed E c q * step ∧
      p.x = q.x + (a * u.1 - y * u.2) / speed E c q ∧ p.y = q.y + (a * u.2 + y * u.1) / speed E c q) ∧
    (r.2.1.1 = none → speed E c q = 0 ∨ speed E c q * step ≤ |((p.x - q.x) * u.1 + (p.y - q.y) * u.2) / speed E c q|) := by
  intro r s q u step
  have ht := C62_particles E hdt c cs h
  have hm : update E c (evals E cs init) = evals E cs init := by
    apply update_done
    rw [(ht.1 c le_rfl).2.2]
    simp
  have hr : r = (evals E cs init, coos E c (evals E cs init) p, nearest c (evals E cs init) p) := by
    change getWakeCoos E c (evals E cs init) p = _
    unfold getWakeCoos
    rw [hm]
  set m := evals E cs init with hmdef
  have hs : s = nearest c m p := by change r.2.2 = _; rw [hr]
  obtain ⟨n1, n2⟩ := nearest_spec c m p
  rw [← hs] at n1 n2
  obtain ⟨e1, e2, e3⟩ := ht.1 s n1
  have hq : m.p s = q := e1
  have hu : m.v s = u := e2
  refine ⟨n1, ?_, ?_, ?_⟩
  · intro s' hs'
    have := n2 s' hs'
    rw [hq, (ht.1 s' hs').1] at this
    exact this
  · rw [hr]; rfl
  have hv : √((m.v s).1 ^ 2 + (m.v s).2 ^ 2) = speed E c q := by rw [hu]; rfl
  have hc : r.2.1.1 = if speed E c q ≠ 0 ∧ -(speed E c q * step) < (p.x - q.x) * (u.1 / speed E c q) + (p.y - q.y) * (u.2 / speed E c q) ∧
      (p.x - q.x) * (u.1 / speed E c q) + (p.y - q.y) * (u.2 / speed E c q) < speed E c q * step then
      some ((m.l s).map fun a => (p.x - q.x) * (u.1 / speed E c q) + (p.y - q.y) * (u.2 / speed E c q) + a,
        (p.x - q.x) * -(u.2 / speed E c q) + (p.y - q.y) * (u.1 / speed E c q)) else none := by
    rw [hr]
    unfold coos
    simp only [← hs, hq, hu]
    rfl
  have hproj : (p.x - q.x) * (u.1 / speed E c q) + (p.y - q.y) * (u.2 / speed E c q) = ((p.x - q.x) * u.1 + (p.y - q.y) * u.2) / speed E c q := by ring
  constructor
  · intro hne
    rw [hc] at hne ⊢
    split_ifs at hne ⊢ with hif
    · obtain ⟨h0, h1, h2⟩ := hif
      have hsq : speed E c q ^ 2 = u.1 ^ 2 + u.2 ^ 2 := Real.sq_sqrt (by positivity)
      refine ⟨_, _, by rw [e3, Option.map_some, add_comm], abs_lt.2 ⟨h1, h2⟩, ?_, ?_⟩
      · field_simp
        linear_combination (p.x - q.x) * hsq
      · field_simp
        linear_combination (p.y - q.y) * hsq
    · exact absurd rfl hne
  · intro hno
    rw [hc] at hno
    split_ifs at hno with hif
    by_cases h0 : speed E c q = 0
    · exact Or.inl h0
    · right
      rw [← hproj]
      by_contra hlt
      push Not at hlt
      exact hif ⟨h0, (abs_lt.1 hlt).1, (abs_lt.1 hlt).2⟩

/-! ## Steady wind -/

/-- fixed turbine, steady uniform wind -/
def steady (hub : V3) (wd ws : ℝ) (dt : ℕ → ℝ) (nDt : ℕ) : Env := ⟨fun _ => hub, fun _ _ => wd2uv wd ws, dt, nDt⟩

lemma wd2uv_scale (wd ws : ℝ) : wd2uv wd ws = (ws * (wd2uv wd 1).1, ws * (wd2uv wd 1).2) := by
  simp [wd2uv, wd2wdvec]

lemma steady_speed (hub : V3) (wd ws : ℝ) (hws : 0 ≤ ws) (dt : ℕ → ℝ) (nDt k : ℕ) (q : V3) : speed (steady hub wd ws dt nDt) k q = ws := by
  unfold speed steady
  simp only
  rw [wd2uv_scale]
  simp only
  rw [show (ws * (wd2uv wd 1).1) ^ 2 + (ws * (wd2uv wd 1).2) ^ 2 = ws ^ 2 * ((wd2uv wd 1).1 ^ 2 + (wd2uv wd 1).2 ^ 2) by ring,
    Foxes.Props.Streamlines.unit, mul_one, Real.sqrt_sq hws]

lemma steady_particle (hub : V3) (wd ws : ℝ) (dt : ℕ → ℝ) (nDt s k : ℕ) :
    particle (steady hub wd ws dt nDt) s k = centreline hub wd (ws * ∑ i ∈ Finset.range k, dt (s + i)) := by
  induction k with
  | zero => simp [particle, steady, centreline, V3.add, V3.smul]
  | succ k ih =>
    rw [particle, ih, Finset.sum_range_succ]
    simp only [steady]
    rw [wd2uv_scale]
    simp only [centreline, V3.add, V3.smul, axisN, V3.mk.injEq]
    refine ⟨by ring, by ring, by ring⟩

/-- the traces in steady wind: on the centreline, at the distance covered since their release -/
theorem C62_steady_traces (hub : V3) (wd ws : ℝ) (hws : 0 ≤ ws) (dt : ℕ → ℝ) (hdt : ∀ k, 0 ≤ dt k) (nDt c : ℕ) (cs : List ℕ) (h : complete c cs) (s : ℕ) (hs : s ≤ c) :
    let m := evals (steady hub wd ws dt nDt) cs init
    let x := ws * ∑ i ∈ Finset.range (c - s), dt (s + i)
    m.p s = centreline hub wd x ∧ m.l s = some x ∧ m.v s = wd2uv wd ws := by
  intro m x
  obtain ⟨e1, e2, e3⟩ := (C62_particles (steady hub wd ws dt nDt) hdt c cs h).1 s hs
  refine ⟨e1.trans (steady_particle ..), ?_, e2⟩
  rw [e3]
  simp only [steady_speed hub wd ws hws]
  rw [← Finset.mul_sum]
  rfl

lemma proj_n (hub p : V3) (wd t : ℝ) : (p.x - (centreline hub wd t).x) * (wd2uv wd 1).1 + (p.y - (centreline hub wd t).y) * (wd2uv wd 1).2 =
    (wakeCoos hub wd p).x - t := by
  have hu := Foxes.Props.Streamlines.unit wd
  simp only [wakeCoos, V3.sub, V3.dot, axisN, centreline, V3.add, V3.smul]
  linear_combination (-t) * hu

lemma proj_m (hub p : V3) (wd t : ℝ) : (p.x - (centreline hub wd t).x) * -(wd2uv wd 1).2 + (p.y - (centreline hub wd t).y) * (wd2uv wd 1).1 =
    (wakeCoos hub wd p).y := by
  simp only [wakeCoos, V3.sub, V3.dot, axisN, axisM, centreline, V3.add, V3.smul]
  ring

lemma dist_centre (hub p : V3) (wd t : ℝ) : dist3D p (centreline hub wd t) =
    √(((wakeCoos hub wd p).x - t) ^ 2 + (wakeCoos hub wd p).y ^ 2 + (p.z - hub.z) ^ 2) := by
  have hu := Foxes.Props.Streamlines.unit wd
  unfold dist3D V3.norm
  congr 1
  rw [← proj_n, ← proj_m hub p wd t]
  simp only [V3.sub]
  have hz : (centreline hub wd t).z = hub.z := by simp [centreline, V3.add, V3.smul, axisN]
  rw [hz]
  linear_combination (-((p.x - (centreline hub wd t).x) ^ 2 + (p.y - (centreline hub wd t).y) ^ 2)) * hu

/-- coordinates in steady wind, any memory whose nearest trace is on the centreline with the right length -/
lemma steady_coos (hub p : V3) (wd ws : ℝ) (hws : 0 < ws) (dt : ℕ → ℝ) (nDt c : ℕ) (m : Traces) (x : ℝ) (hp : m.p (nearest c m p) = centreline hub wd x)
    (hv : m.v (nearest c m p) = wd2uv wd ws) :
    coos (steady hub wd ws dt nDt) c m p =
      (if |(wakeCoos hub wd p).x - x| < ws * (if c < nDt then dt c else dt (nDt - 1)) then
        some ((m.l (nearest c m p)).map fun a => (wakeCoos hub wd p).x - x + a, (wakeCoos hub wd p).y) else none, (wakeCoos hub wd p).z) := by
  have hspeed : √((wd2uv wd ws).1 ^ 2 + (wd2uv wd ws).2 ^ 2) = ws := steady_speed hub wd ws hws.le dt nDt 0 hub
  unfold coos
  simp only [hp, hv, hspeed]
  have e1 : (wd2uv wd ws).1 / ws = (wd2uv wd 1).1 := by rw [wd2uv_scale]; field_simp
  have e2 : (wd2uv wd ws).2 / ws = (wd2uv wd 1).2 := by rw [wd2uv_scale]; field_simp
  rw [e1, e2, proj_n, proj_m]
  have hz : (wakeCoos hub wd p).z = p.z - hub.z := by simp [wakeCoos, V3.sub, V3.dot, axisZ]
  rw [hz]
  congr 1
  simp only [steady, abs_lt, hws.ne', ne_eq, not_false_eq_true, true_and]
  congr!

/-- In steady wind with constant time steps the wake coordinates are those of the standard frame, from one time step upstream to the distance that the
wind has covered since the first state (plus one step); there is no wake outside. The state of origin is the one at which the air at the target left
the rotor, up to half a step (within the range of the traces). -/
theorem C62_steady (hub p : V3) (wd ws : ℝ) (hws : 0 < ws) (dt : ℝ) (hdt : 0 < dt) (nDt c : ℕ) (cs : List ℕ) (h : complete c cs) :
    let r := getWakeCoos (steady hub wd ws (fun _ => dt) nDt) c (evals (steady hub wd ws (fun _ => dt) nDt) cs init) p
    let w := wakeCoos hub wd p
    r.2.1 = (if -(ws * dt) < w.x ∧ w.x < (c + 1) * (ws * dt) then some (some w.x, w.y) else none, w.z) ∧
    (-(ws * dt) / 2 ≤ w.x → w.x ≤ c * (ws * dt) + ws * dt / 2 → |w.x - ws * ((c - r.2.2 : ℕ) * dt)| ≤ ws * dt / 2) := by
  intro r w
  set E := steady hub wd ws (fun _ => dt) nDt with hE
  have hd : ∀ k, 0 ≤ E.dt k := fun _ => hdt.le
  have ht := C62_particles E hd c cs h
  have hm : update E c (evals E cs init) = evals E cs init := by
    apply update_done
    rw [(ht.1 c le_rfl).2.2]
    simp
  set m := evals E cs init with hmdef
  have hr : r = (m, coos E c m p, nearest c m p) := by
    change getWakeCoos E c m p = _
    unfold getWakeCoos
    rw [hm]
  obtain ⟨n1, n2⟩ := nearest_spec c m p
  have htr : ∀ s ≤ c, m.p s = centreline hub wd (((c - s : ℕ) : ℝ) * (ws * dt)) ∧ m.l s = some (((c - s : ℕ) : ℝ) * (ws * dt)) ∧ m.v s = wd2uv wd ws := by
    intro s hs
    have := C62_steady_traces hub wd ws hws.le (fun _ => dt) (fun _ => hdt.le) nDt c cs h s hs
    simp only [Finset.sum_const, Finset.card_range, nsmul_eq_mul] at this
    rw [show ws * (((c - s : ℕ) : ℝ) * dt) = ((c - s : ℕ) : ℝ) * (ws * dt) by ring] at this
    exact this
  rw [hr]
  simp only
  set s := nearest c m p with hs
  obtain ⟨e1, e2, e3⟩ := htr s n1
  set L := ws * dt with hL
  have hLpos : 0 < L := by positivity
  set i := c - s with hi
  have hic : i ≤ c := by omega
  have hsq : ∀ j ≤ c, (w.x - i * L) ^ 2 ≤ (w.x - j * L) ^ 2 := by
    intro j hj
    have := n2 (c - j) (by omega)
    rw [(htr (c - j) (by omega)).1, e1, dist_centre, dist_centre, Real.sqrt_le_sqrt_iff (by positivity)] at this
    rw [show c - (c - j) = j by omega] at this
    linarith
  have hi0 : (0 : ℝ) ≤ i := Nat.cast_nonneg i
  have hic' : (i : ℝ) ≤ c := by exact_mod_cast hic
  have iff : |w.x - i * L| < L ↔ (-L < w.x ∧ w.x < (c + 1) * L) := by
    rw [abs_lt]
    constructor
    · rintro ⟨h1, h2⟩
      constructor <;> nlinarith
    · rintro ⟨h1, h2⟩
      constructor
      · by_contra hc
        push Not at hc
        have hipos : 0 < i := by
          rcases Nat.eq_zero_or_pos i with h0 | h0
          · rw [h0] at hc; simp at hc; linarith
          · exact h0
        have := hsq (i - 1) (by omega)
        rw [Nat.cast_sub hipos] at this
        push_cast at this
        nlinarith
      · by_contra hc
        push Not at hc
        by_cases hl : i + 1 ≤ c
        · have := hsq (i + 1) hl
          push_cast at this
          nlinarith
        · have : (c : ℝ) = i := by
            have : c = i := by omega
            rw [this]
          rw [this] at h2
          linarith
  constructor
  · rw [steady_coos hub p wd ws hws (fun _ => dt) nDt c m _ e1 e3]
    simp only [ite_self]
    by_cases hc : -L < w.x ∧ w.x < (c + 1) * L
    · rw [if_pos (iff.2 hc), if_pos hc, ← hs, e2, Option.map_some, sub_add_cancel]
    · rw [if_neg (fun hh => hc (iff.1 hh)), if_neg hc]
  · intro hlo hhi
    rw [show ws * ((i : ℝ) * dt) = i * L by rw [hL]; ring, abs_le]
    constructor
    · by_contra hc
      push Not at hc
      have hipos : 0 < i := by
        rcases Nat.eq_zero_or_pos i with h0 | h0
        · rw [h0] at hc; simp at hc; linarith
        · exact h0
      have := hsq (i - 1) (by omega)
      rw [Nat.cast_sub hipos] at this
      push_cast at this
      nlinarith
    · by_contra hc
      push Not at hc
      by_cases hl : i + 1 ≤ c
      · have := hsq (i + 1) hl
        push_cast at this
        nlinarith
      · have : (c : ℝ) = i := by
          have : c = i := by omega
          rw [this]
        rw [this] at hhi
        linarith

/-! ## Findings -/

/-- Irregular time steps leave gaps: at the second state, if the coming time step is less than half the past one, a target half way between the rotor and
the end of the wake has no wake, although air that left the rotor is there (steady wind). -/
theorem C62_gap (hub p : V3) (wd ws : ℝ) (hws : 0 < ws) (dt : ℕ → ℝ) (hdt : ∀ k, 0 ≤ dt k) (nDt : ℕ) (hn : 1 < nDt) (hgap : dt 1 < dt 0 / 2)
    (hx : (wakeCoos hub wd p).x = ws * dt 0 / 2) (cs : List ℕ) (h : complete 1 cs) :
    (getWakeCoos (steady hub wd ws dt nDt) 1 (evals (steady hub wd ws dt nDt) cs init) p).2.1.1 = none := by
  set E := steady hub wd ws dt nDt with hE
  have ht := C62_particles E hdt 1 cs h
  have hm : update E 1 (evals E cs init) = evals E cs init := by
    apply update_done
    rw [(ht.1 1 le_rfl).2.2]
    simp
  set m := evals E cs init with hmdef
  have hr : getWakeCoos E 1 m p = (m, coos E 1 m p, nearest 1 m p) := by
    unfold getWakeCoos
    rw [hm]
  rw [hr]
  simp only
  have n1 := (nearest_spec 1 m p).1
  have htr := C62_steady_traces hub wd ws hws.le dt hdt nDt 1 cs h (nearest 1 m p) n1
  simp only at htr
  obtain ⟨e1, -, e3⟩ := htr
  rw [steady_coos hub p wd ws hws dt nDt 1 m _ e1 e3]
  simp only
  rw [if_neg]
  rw [if_pos hn, not_lt]
  have hpos : ws * dt 1 ≤ ws * dt 0 / 2 := by nlinarith
  refine hpos.trans ?_
  rw [hx]
  have hc : nearest 1 m p = 0 ∨ nearest 1 m p = 1 := by omega
  have h0 : 0 ≤ ws * dt 0 := mul_nonneg hws.le (hdt 0)
  rcases hc with hc | hc <;> rw [hc]
  · simp only [Nat.sub_zero, Finset.sum_range_one, Nat.add_zero]
    rw [abs_of_nonpos (by linarith)]
    linarith
  · simp only [Nat.sub_self, Finset.range_zero, Finset.sum_empty, mul_zero, sub_zero]
    rw [abs_of_nonneg (by linarith)]

/-- A second run of the same algorithm object starts with the traces of the first: in steady wind, after at least three states, the near wake is missing at
the first state of the second run, where the first run had it. -/
theorem C62_second_run (hub p : V3) (wd ws : ℝ) (hws : 0 < ws) (dt : ℝ) (hdt : 0 < dt) (nDt c : ℕ) (hc : 2 ≤ c) (cs : List ℕ) (h : complete c cs)
    (hx : 0 ≤ (wakeCoos hub wd p).x) (hx' : (wakeCoos hub wd p).x < ws * dt) :
    let E := steady hub wd ws (fun _ => dt) nDt
    (getWakeCoos E 0 init p).2.1.1 = some (some (wakeCoos hub wd p).x, (wakeCoos hub wd p).y) ∧
    (getWakeCoos E 0 (evals E cs init) p).2.1.1 = none := by
  intro E
  have hL : 0 < ws * dt := by positivity
  constructor
  · have := (C62_steady hub p wd ws hws dt hdt nDt 0 [0] ⟨by simp, by simp⟩).1
    simp only [evals] at this
    have h2 : getWakeCoos E 0 init p = getWakeCoos E 0 (update E 0 init) p := by
      unfold getWakeCoos
      rw [update_done E 0 (update E 0 init) (update_l E 0 init)]
    rw [h2, this]
    simp only
    rw [if_pos ⟨by linarith, by push_cast; linarith⟩]
  · have hd : ∀ k, 0 ≤ E.dt k := fun _ => hdt.le
    have ht := C62_particles E hd c cs h
    have hm : update E 0 (evals E cs init) = evals E cs init := by
      apply update_done
      rw [(ht.1 0 (by omega)).2.2]
      simp
    set m := evals E cs init with hmdef
    have hr : getWakeCoos E 0 m p = (m, coos E 0 m p, nearest 0 m p) := by
      unfold getWakeCoos
      rw [hm]
    rw [hr]
    simp only
    have n1 : nearest 0 m p = 0 := by have := (nearest_spec 0 m p).1; omega
    have htr := C62_steady_traces hub wd ws hws.le (fun _ => dt) (fun _ => hdt.le) nDt c cs h 0 (by omega)
    simp only at htr
    obtain ⟨e1, -, e3⟩ := htr
    rw [steady_coos hub p wd ws hws (fun _ => dt) nDt 0 m (ws * ∑ i ∈ Finset.range (c - 0), dt) (by rw [n1]; exact e1) (by rw [n1]; exact e3)]
    simp only [ite_self, Finset.sum_const, Finset.card_range, nsmul_eq_mul, Nat.sub_zero]
    rw [if_neg]
    rw [not_lt]
    have h2 : (2 : ℝ) ≤ c := by exact_mod_cast hc
    rw [abs_of_nonpos (by nlinarith)]
    nlinarith

/-- If the evaluations at earlier states are not seen - because they were made in another process, whose traces are lost, or because there were none (the
last turbine of the farm, if points are not evaluated at every state) - wakes end after one time step: no target further downstream than the wind covers
in one time step has a wake, at any state, in any wind. -/
theorem C62_lost_traces (E : Env) (c : ℕ) (p : V3) (hfar : speed E c (E.hub c) * (if c < E.nDt then E.dt c else E.dt (E.nDt - 1)) ≤
      ((p.x - (E.hub c).x) * (E.wind c (E.hub c)).1 + (p.y - (E.hub c).y) * (E.wind c (E.hub c)).2) / speed E c (E.hub c)) :
    ∀ x y, (getWakeCoos E c init p).2.1.1 ≠ some (some x, y) := by
  intro x y hxy
  set m := update E c init with hm
  have n1 := (nearest_spec c m p).1
  change (coos E c m p).1 = some (some x, y) at hxy
  rcases Nat.lt_or_ge (nearest c m p) c with hlt | hge
  · have hl' : ∀ s < c, m.l s = none := by
      intro s hs
      rw [hm]
      unfold update
      simp only [init]
      rw [if_pos hs]
      rfl
    have hl := hl' _ hlt
    unfold coos at hxy
    simp only [hl, Option.map_none] at hxy
    split_ifs at hxy <;> simp at hxy
  · have hnc : nearest c m p = c := by omega
    have hp : m.p c = E.hub c := by simp [hm, update, init]
    have hv : m.v c = E.wind c (E.hub c) := by simp [hm, update, init]
    unfold coos at hxy
    simp only [hnc, hp, hv] at hxy
    have h3 : √((E.wind c (E.hub c)).1 ^ 2 + (E.wind c (E.hub c)).2 ^ 2) = speed E c (E.hub c) := rfl
    have h4 : (p.x - (E.hub c).x) * ((E.wind c (E.hub c)).1 / speed E c (E.hub c)) + (p.y - (E.hub c).y) * ((E.wind c (E.hub c)).2 / speed E c (E.hub c)) =
        ((p.x - (E.hub c).x) * (E.wind c (E.hub c)).1 + (p.y - (E.hub c).y) * (E.wind c (E.hub c)).2) / speed E c (E.hub c) := by ring
    by_cases h0 : c < E.nDt <;> simp only [h0, if_true, if_false, h3, h4] at hxy hfar <;> split_ifs at hxy with hif <;>
      (obtain ⟨-, -, h2⟩ := hif; linarith)

/-- Wake data are those of the turbine at the state of origin: the stored results of that state, or the current data if it is the current one. -/
theorem C62_source_data (stored : ℕ → ℝ) (cur : ℝ) (c s : ℕ) : (s = c → sourceData stored cur c s = cur) ∧ (s ≠ c → sourceData stored cur c s = stored s) := by
  constructor
  · rintro rfl; simp [sourceData]
  · intro h; simp [sourceData, h]

/-! ## Non-vacuity -/

/-- states 0, 1, 2; the second one is evaluated twice -/
lemma complete_ex : complete 2 [0, 1, 1, 2] := ⟨[0, 1, 1], [2], rfl, ⟨[0], [1, 1], rfl, ⟨by simp, by simp⟩, by simp, by simp⟩, by simp, by simp⟩

/-- wind from the west with 10 m/s, steps of one minute: after three states the wake has passed a point 1500 m downstream -/
example : (getWakeCoos (steady ⟨0, 0, 100⟩ 270 10 (fun _ => 60) 2) 2 (evals (steady ⟨0, 0, 100⟩ 270 10 (fun _ => 60) 2) [0, 1, 1, 2] init) ⟨1500, 30, 90⟩).2.1 =
    (some (some 1500, 30), -10) := by
  rw [(C62_steady ⟨0, 0, 100⟩ ⟨1500, 30, 90⟩ 270 10 (by norm_num) 60 (by norm_num) 2 2 _ complete_ex).1, Foxes.Props.Frames.C32_west_wind]
  norm_num

/-- but not one at 1900 m -/
example : (getWakeCoos (steady ⟨0, 0, 100⟩ 270 10 (fun _ => 60) 2) 2 (evals (steady ⟨0, 0, 100⟩ 270 10 (fun _ => 60) 2) [0, 1, 1, 2] init) ⟨1900, 30, 90⟩).2.1 =
    (none, -10) := by
  rw [(C62_steady ⟨0, 0, 100⟩ ⟨1900, 30, 90⟩ 270 10 (by norm_num) 60 (by norm_num) 2 2 _ complete_ex).1, Foxes.Props.Frames.C32_west_wind]
  norm_num

/-- with traces lost, the point at 1500 m has no wake -/
example : ∀ x y, (getWakeCoos (steady ⟨0, 0, 100⟩ 270 10 (fun _ => 60) 2) 2 init ⟨1500, 30, 90⟩).2.1.1 ≠ some (some x, y) := by
  apply C62_lost_traces
  rw [steady_speed _ _ _ (by norm_num)]
  have hx : (wd2uv 270 10).1 = 10 := by
    have := congrArg V3.x (Foxes.Props.Frames.C32_west_wind ⟨0, 0, 0⟩ ⟨1, 0, 0⟩)
    rw [wd2uv_scale]
    simp only [wakeCoos, V3.sub, V3.dot, axisN] at this
    simp only
    linarith
  have hy : (wd2uv 270 10).2 = 0 := by
    have := congrArg V3.x (Foxes.Props.Frames.C32_west_wind ⟨0, 0, 0⟩ ⟨0, 1, 0⟩)
    rw [wd2uv_scale]
    simp only [wakeCoos, V3.sub, V3.dot, axisN] at this
    simp only
    linarith
  simp only [steady, hx, hy]
  norm_num

/-- steps of 10 minutes, then one minute -/
example : ∃ hub p : V3, ∃ dt : ℕ → ℝ, (∀ k, 0 ≤ dt k) ∧ dt 1 < dt 0 / 2 ∧ (wakeCoos hub 270 p).x = 10 * dt 0 / 2 :=
  ⟨⟨0, 0, 100⟩, ⟨3000, 0, 100⟩, fun k => if k = 0 then 600 else 60, fun k => by simp only; split_ifs <;> norm_num, by norm_num, by
    rw [Foxes.Props.Frames.C32_west_wind]; norm_num⟩

end

end Foxes.Props.SeqWakes
