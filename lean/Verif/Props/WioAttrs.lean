import Verif.Model.WioAttrs
import Verif.Props.WindIO
import Verif.Props.Factory
import Mathlib.Tactic.Linarith

/-!
C69: attributes and outputs of a windIO file become the algorithm and outputs they ask for.
-/

namespace Foxes.Props.WioAttrs
open Foxes.WioAttrs
open Foxes.WindIO (Err item put)
open Foxes.GetData (WakeK TiVar)
open Foxes.Props.WindIO (bind_ok lookup_put keys_put lookup_mem mem_lookup)

/-! ### Specification -/

/-- The wake growth the entry `wake_expansion_coefficient` stands for: `k_a * TI + k_b`, where a missing or None number is zero and the turbulence intensity
is the ambient one if `free_stream_ti` is set. -/
def wantedGrowth (c : KCoef) (ti amb : ℚ) : ℚ :=
  (c.ka.getD none).getD 0 * (if c.freeTi = some true then amb else ti) + c.kb.getD 0

/-- A wake growth object gives the wanted value for all values of the turbulence intensity. -/
def Grows (k : WakeK) (c : KCoef) : Prop :=
  ∀ (ctx : GetData.Ctx ℚ) (t : GetData.Target) (o : GetData.Opts) (ti amb : DataBox.Arr ℚ),
    ∃ v, k.stored (fun _ => false) ctx t o (some ti) (some amb) = .ok (some v) ∧ ∀ i, v.val i = wantedGrowth c (ti.val i) (amb.val i)

/-- The class for the name of a wind deficit model. -/
def deficitClass : String → Option String
  | "Jensen" => some "JensenWake"
  | "Bastankhah2014" => some "Bastankhah2014"
  | "Bastankhah2016" => some "Bastankhah2016"
  | "TurbOPark" => some "TurbOParkWake"
  | _ => none

/-- The class for the name of a turbulence model. -/
def turbulenceClass : String → Option String
  | "CrespoHernandez" => some "CrespoHernandezTIWake"
  | "IEC-TI-2019" => some "IECTIWake"
  | _ => none

/-- The class for the name of a blockage model. -/
def blockageClass : String → Option String
  | "RankineHalfBody" => some "RankineHalfBody"
  | "Rathmann" => some "Rathmann"
  | "SelfSimilarityDeficit" => some "SelfSimilar"
  | "SelfSimilarityDeficit2020" => some "SelfSimilar2020"
  | _ => none

/-- The superposition for the entry `ws_superposition`. -/
def wsSuperposition (eff : Bool) : String → Option String
  | "Linear" => some (if eff then "ws_linear" else "ws_linear_amb")
  | "Squared" => some (if eff then "ws_quadratic" else "ws_quadratic_amb")
  | "Product" => some "ws_product"
  | _ => none

/-- The superposition for the entry `ti_superposition`. -/
def tiSuperposition : String → Option String
  | "Linear" => some "ti_linear"
  | "Squared" => some "ti_quadratic"
  | _ => none

/-- The induction model for the entry `axial_induction_model`. -/
def inductionModel : Option String → Option String
  | none => some "Betz"
  | some "1D" => some "Betz"
  | some "Madsen" => some "Madsen"
  | _ => none

/-- The deficit entry of the analysis. -/
def Analysis.deficit (a : Analysis) : Option Deficit := if a.windDeficit.isSome then a.windDeficit else a.wakeModel

/-- A named entry that asks for a model: `none` if missing or with name None. -/
def asked : Option (Option String) → Option String
  | some (some n) => if n = "None" ∨ n = "none" then none else some n
  | _ => none

/-! ### Auxiliary lemmas -/

lemma item_ok {α : Type} {x : Option α} {a : α} (h : item x = .ok a) : x = some a := by
  cases x with
  | none => simp [item] at h
  | some b => simpa [item] using h

lemma pure_ok {α : Type} {a b : α} (h : (pure a : Except Err α) = .ok b) : b = a := by
  injection h with h
  exact h.symm

lemma item_some {α : Type} (a : α) : item (some a) = .ok a := rfl

lemma growth_ok (kk : Option ℚ × ℚ × Bool) : ∃ k, growth (kArgs kk) = .ok k := by
  obtain ⟨ka, kb, amb⟩ := kk
  cases ka with
  | none => exact ⟨_, by simp [kArgs, growth, WakeK.new]; rfl⟩
  | some x =>
    by_cases hx : x = 0
    · exact ⟨_, by simp [kArgs, hx, growth, WakeK.new]; rfl⟩
    · exact ⟨_, by simp [kArgs, hx, growth, WakeK.new]; rfl⟩

lemma readK_ok {c : KCoef} {kk : Option ℚ × ℚ × Bool} (h : readK c = .ok kk) : ∃ ka, c.ka = some ka ∧ kk = (ka, c.kb.getD 0, c.freeTi.getD false) := by
  unfold readK at h
  obtain ⟨ka, h1, h2⟩ := bind_ok h
  exact ⟨ka, item_ok h1, pure_ok h2⟩

lemma grows {c : KCoef} {kk : Option ℚ × ℚ × Bool} {k : WakeK} (h : readK c = .ok kk) (hk : growth (kArgs kk) = .ok k) : Grows k c := by
  obtain ⟨ka, hka, rfl⟩ := readK_ok h
  intro ctx t o ti amb
  cases ka with
  | none =>
    simp [kArgs, growth, WakeK.new] at hk
    subst hk
    exact ⟨_, by simp [WakeK.stored]; rfl, fun i => by simp [wantedGrowth, hka]⟩
  | some x =>
    by_cases hx : x = 0
    · simp [kArgs, hx, growth, WakeK.new] at hk
      subst hk
      exact ⟨_, by simp [WakeK.stored]; rfl, fun i => by simp [wantedGrowth, hka, hx]⟩
    · simp [kArgs, hx, growth, WakeK.new] at hk
      subst hk
      rcases hf : c.freeTi with _ | _ | _
      · exact ⟨_, by simp [WakeK.stored]; rfl, fun i => by simp [wantedGrowth, hka, hf]⟩
      · exact ⟨_, by simp [WakeK.stored]; rfl, fun i => by simp [wantedGrowth, hka, hf]⟩
      · exact ⟨_, by simp [WakeK.stored]; rfl, fun i => by simp [wantedGrowth, hka, hf]⟩

lemma newWake_ok {cls ind sup : String} {sb : Option ℚ} {p} {w : WObj} (h : newWake cls ind sup sb p = .ok w) :
    cls ∈ wakeClasses ∧ (sb.isSome → cls ∈ ["Bastankhah2014", "TurbOParkWake", "CrespoHernandezTIWake"]) ∧
      ∃ k, growth p = .ok k ∧ w = ⟨cls, ind, some sup, some k, sb⟩ := by
  unfold newWake at h
  split_ifs at h with h1 h2
  obtain ⟨k, h3, h4⟩ := bind_ok h
  refine ⟨h1, fun hs => ?_, k, h3, pure_ok h4⟩
  by_contra hc
  exact h2 ⟨hs, hc⟩

lemma lookup_windDef {n cls : String} (h : windDefMap.lookup n = some cls) (hc : cls ∈ wakeClasses) : deficitClass n = some cls ∧ n ≠ "TurbOPark" := by
  have := lookup_mem h
  simp only [windDefMap, List.mem_cons, Prod.mk.injEq, List.not_mem_nil, or_false] at this
  rcases this with ⟨rfl, rfl⟩ | ⟨rfl, rfl⟩ | ⟨rfl, rfl⟩ | ⟨rfl, rfl⟩
  · exact ⟨rfl, by decide⟩
  · exact ⟨rfl, by decide⟩
  · exact ⟨rfl, by decide⟩
  · exact absurd hc (by decide)

lemma lookup_wsSup {eff : Bool} {n s : String} (h : (wsSup eff).lookup n = some s) : wsSuperposition eff n = some s := by
  have := lookup_mem h
  cases eff
  all_goals
    simp only [wsSup, List.mem_cons, Prod.mk.injEq, List.not_mem_nil, or_false, if_true, Bool.false_eq_true, if_false] at this
    rcases this with ⟨rfl, rfl⟩ | ⟨rfl, rfl⟩ | ⟨rfl, rfl⟩
    · rfl
    · rfl
    · rfl

lemma lookup_turb {n cls : String} (h : turbMap.lookup n = some cls) : turbulenceClass n = some cls := by
  have := lookup_mem h
  simp only [turbMap, List.mem_cons, Prod.mk.injEq, List.not_mem_nil, or_false] at this
  rcases this with ⟨rfl, rfl⟩ | ⟨rfl, rfl⟩
  · rfl
  · rfl

lemma lookup_tiSup {n s : String} (h : tiSup.lookup n = some s) : tiSuperposition n = some s := by
  have := lookup_mem h
  simp only [tiSup, List.mem_cons, Prod.mk.injEq, List.not_mem_nil, or_false] at this
  rcases this with ⟨rfl, rfl⟩ | ⟨rfl, rfl⟩
  · rfl
  · rfl

lemma lookup_block {n cls : String} (h : blockMap.lookup n = some cls) : blockageClass n = some cls := by
  have := lookup_mem h
  simp only [blockMap, List.mem_cons, Prod.mk.injEq, List.not_mem_nil, or_false] at this
  rcases this with ⟨rfl, rfl⟩ | ⟨rfl, rfl⟩ | ⟨rfl, rfl⟩ | ⟨rfl, rfl⟩
  · rfl
  · rfl
  · rfl
  · rfl

lemma lookup_ind {o : Option String} {s : String} (h : indMap.lookup (o.getD "1D") = some s) : inductionModel o = some s := by
  have := lookup_mem h
  simp only [indMap, List.mem_cons, Prod.mk.injEq, List.not_mem_nil, or_false] at this
  cases o with
  | none =>
    rcases this with ⟨h1, rfl⟩ | ⟨h1, rfl⟩
    · rfl
    · exact absurd h1 (by decide)
  | some n =>
    simp only [Option.getD_some] at this
    rcases this with ⟨rfl, rfl⟩ | ⟨rfl, rfl⟩
    · rfl
    · rfl

/-- What a successful read of the deficit does. -/
lemma readDeficit_ok {d : Deficit} {sup : List (String × String)} {ind : String} {s s' : St} {kk} (h : readDeficit d sup ind s = .ok (s', kk)) :
    ∃ n cls c sn su k, d.name = some n ∧ deficitClass n = some cls ∧ n ≠ "TurbOPark" ∧ (d.ceps.isSome → n = "Bastankhah2014") ∧ d.kcoef = some c ∧ readK c = .ok kk ∧
      sup.lookup "ws_superposition" = some sn ∧ wsSuperposition (d.effWs.getD true) sn = some su ∧ growth (kArgs kk) = .ok k ∧
      s' = addWake n ⟨cls, ind, some su, some k, d.ceps⟩ s := by
  unfold readDeficit at h
  obtain ⟨n, h1, h⟩ := bind_ok h
  obtain ⟨cls, h2, h⟩ := bind_ok h
  obtain ⟨c, h3, h⟩ := bind_ok h
  obtain ⟨kk', h4, h⟩ := bind_ok h
  obtain ⟨sn, h5, h⟩ := bind_ok h
  obtain ⟨su, h6, h⟩ := bind_ok h
  obtain ⟨w, h7, h⟩ := bind_ok h
  obtain ⟨a1, a2, k, a3, a4⟩ := newWake_ok h7
  have h2' := lookup_windDef (item_ok h2) a1
  simp only [pure, Except.pure, Except.ok.injEq, Prod.mk.injEq] at h
  obtain ⟨rfl, rfl⟩ := h
  refine ⟨n, cls, c, sn, su, k, item_ok h1, h2'.1, h2'.2, fun hs => ?_, item_ok h3, h4, item_ok h5, lookup_wsSup (item_ok h6), a3, by rw [a4]⟩
  have := a2 hs
  have hm := lookup_mem (item_ok h2)
  simp only [windDefMap, List.mem_cons, Prod.mk.injEq, List.not_mem_nil, or_false] at hm
  rcases hm with ⟨rfl, rfl⟩ | ⟨rfl, rfl⟩ | ⟨rfl, rfl⟩ | ⟨rfl, rfl⟩
  · exact absurd this (by decide)
  · rfl
  · exact absurd this (by decide)
  · exact absurd this (by decide)

/-- What a successful read of the turbulence model does. -/
lemma readTurb_ok {t : Turb} {sup : List (String × String)} {ind : String} {kk} {s s' : St} (h : readTurb t sup ind kk s = .ok s') :
    (∃ n, t.name = some n ∧ (n = "None" ∨ n = "none") ∧ s' = s) ∨
    ∃ n cls k0 sn su k, t.name = some n ∧ ¬ (n = "None" ∨ n = "none") ∧ turbulenceClass n = some cls ∧ turbK t.kcoef kk = .ok k0 ∧
      sup.lookup "ti_superposition" = some sn ∧ tiSuperposition sn = some su ∧ growth (kArgs k0) = .ok k ∧
      s' = addWake n ⟨cls, ind, some su, some k, none⟩ s := by
  unfold readTurb at h
  obtain ⟨n, h1, h⟩ := bind_ok h
  split_ifs at h with hn
  · left
    exact ⟨n, item_ok h1, hn, pure_ok h⟩
  · right
    obtain ⟨cls, h2, h⟩ := bind_ok h
    obtain ⟨k0, h3, h⟩ := bind_ok h
    obtain ⟨sn, h5, h⟩ := bind_ok h
    obtain ⟨su, h6, h⟩ := bind_ok h
    obtain ⟨w, h7, h⟩ := bind_ok h
    obtain ⟨a1, a2, k, a3, a4⟩ := newWake_ok h7
    refine ⟨n, cls, k0, sn, su, k, item_ok h1, hn, lookup_turb (item_ok h2), h3, item_ok h5, lookup_tiSup (item_ok h6), a3, ?_⟩
    rw [← a4]
    exact pure_ok h

/-- What a successful read of the blockage model does. -/
lemma readBlockage_ok {nm : Option String} {ind : String} {s s' : St} (h : readBlockage nm ind s = .ok s') :
    (∃ n, nm = some n ∧ (n = "None" ∨ n = "none") ∧ s' = s) ∨
    ∃ n cls, nm = some n ∧ ¬ (n = "None" ∨ n = "none") ∧ blockageClass n = some cls ∧
      s' = { addWake n ⟨cls, ind, none, none, none⟩ s with algoType := "Iterative" } := by
  unfold readBlockage at h
  obtain ⟨n, h1, h⟩ := bind_ok h
  split_ifs at h with hn
  · left
    exact ⟨n, item_ok h1, hn, pure_ok h⟩
  · right
    obtain ⟨cls, h2, h⟩ := bind_ok h
    obtain ⟨w, h7, h⟩ := bind_ok h
    unfold newBlock at h7
    split_ifs at h7
    simp only [Except.ok.injEq] at h7
    refine ⟨n, cls, item_ok h1, hn, lookup_block (item_ok h2), ?_⟩
    rw [h7]
    exact pure_ok h

lemma deficitClass_name {n cls : String} (h : deficitClass n = some cls) : n ∈ ["Jensen", "Bastankhah2014", "Bastankhah2016", "TurbOPark"] := by
  unfold deficitClass at h
  split at h <;> simp_all

lemma turbulenceClass_name {n cls : String} (h : turbulenceClass n = some cls) : n ∈ ["CrespoHernandez", "IEC-TI-2019"] := by
  unfold turbulenceClass at h
  split at h <;> simp_all

lemma blockageClass_name {n cls : String} (h : blockageClass n = some cls) :
    n ∈ ["RankineHalfBody", "Rathmann", "SelfSimilarityDeficit", "SelfSimilarityDeficit2020"] := by
  unfold blockageClass at h
  split at h <;> simp_all

/-- What a successful read of the rotor averaging does. -/
lemma readRotor_ok {r : RotorAvg} {s s' : St} (h : readRotor r s = .ok s') :
    r.nx = r.ny ∧ s' = { s with rotor := some (rotorName r), pwakes := some (pwName r) } := by
  unfold readRotor at h
  split_ifs at h with h1
  simp only [Except.ok.injEq] at h
  exact ⟨not_not.mp h1, h.symm⟩

/-- What a successful read of the deflection does. -/
lemma readDeflection_ok {nm : Option String} {ind : String} {s s' : St} (h : readDeflection nm ind s = .ok s') :
    ∃ n cls, nm = some n ∧ deflMap.lookup n = some cls ∧ s' = { s with frames := put n (newFrame cls ind) s.frames, frame := some n } := by
  unfold readDeflection at h
  obtain ⟨n, h1, h⟩ := bind_ok h
  obtain ⟨cls, h2, h⟩ := bind_ok h
  exact ⟨n, cls, item_ok h1, item_ok h2, pure_ok h⟩

lemma deficit_eq (a : Analysis) : (a.windDeficit.orElse fun _ => a.wakeModel) = Analysis.deficit a := by
  unfold Analysis.deficit
  cases a.windDeficit <;> simp

/-- The wake model objects an analysis asks for, with their names, in the order deficit, turbulence, blockage. -/
structure Wanted (a : Analysis) (ws : List (String × WObj)) : Prop where
  ex : ∃ ind d n cls c sup sn su k, inductionModel a.induction = some ind ∧ Analysis.deficit a = some d ∧ d.name = some n ∧ deficitClass n = some cls ∧
    d.kcoef = some c ∧ a.superposition = some sup ∧ sup.lookup "ws_superposition" = some sn ∧ wsSuperposition (d.effWs.getD true) sn = some su ∧ Grows k c ∧
    ∃ wt wb, ws = (n, ⟨cls, ind, some su, some k, d.ceps⟩) :: (wt ++ wb) ∧
      (match asked (a.turb.map Turb.name) with
        | none => wt = []
        | some nt => ∃ t clt st stn kt, a.turb = some t ∧ turbulenceClass nt = some clt ∧ sup.lookup "ti_superposition" = some stn ∧ tiSuperposition stn = some st ∧
            Grows kt (t.kcoef.getD c) ∧ wt = [(nt, ⟨clt, ind, some st, some kt, none⟩)]) ∧
      (match asked a.blockage with
        | none => wb = []
        | some nb => ∃ clb, blockageClass nb = some clb ∧ wb = [(nb, ⟨clb, ind, none, none, none⟩)])

lemma noRotor (s : St) (h1 : s.rotor = none) (h2 : s.pwakes = none) : s = { s with rotor := none, pwakes := none } := by
  cases s
  simp_all

/-- The state after reading an analysis. -/
lemma readAnalysis_ok {a : Analysis} {s : St} (h : readAnalysis a {} = .ok s) :
    ∃ ws, Wanted a ws ∧ (ws.map Prod.fst).Nodup ∧ s.wakes = ws.map Prod.fst ∧ s.book = ws ∧
      (s.algoType = if (asked a.blockage).isSome then "Iterative" else "Downwind") ∧
      s.rotor = a.rotor.map rotorName ∧ s.pwakes = a.rotor.map pwName ∧ (∀ r, a.rotor = some r → r.nx = r.ny) ∧
      (match a.deflection with
        | none => s.frame = none
        | some nm => ∃ n cls ind, nm = some n ∧ deflMap.lookup n = some cls ∧ inductionModel a.induction = some ind ∧ s.frame = some n ∧
            s.frames.lookup n = some (newFrame cls ind)) := by
  unfold readAnalysis at h
  obtain ⟨sup, hsup, h⟩ := bind_ok h
  obtain ⟨ind, hind, h⟩ := bind_ok h
  obtain ⟨d, hd, h⟩ := bind_ok h
  obtain ⟨⟨s1, kk⟩, h1, h⟩ := bind_ok h
  obtain ⟨s2, h2, h⟩ := bind_ok h
  obtain ⟨s3, h3, h⟩ := bind_ok h
  obtain ⟨s4, h4, h⟩ := bind_ok h
  rw [deficit_eq] at hd
  have hind' := lookup_ind (item_ok hind)
  obtain ⟨n, cls, c, sn, su, k, e1, e2, e2', -, e3, e4, e5, e6, e7, e8⟩ := readDeficit_ok h1
  -- turbulence
  have ht : ∃ wt, (match asked (a.turb.map Turb.name) with
        | none => wt = []
        | some nt => ∃ t clt st stn kt, a.turb = some t ∧ turbulenceClass nt = some clt ∧ sup.lookup "ti_superposition" = some stn ∧ tiSuperposition stn = some st ∧
            Grows kt (t.kcoef.getD c) ∧ wt = [(nt, (⟨clt, ind, some st, some kt, none⟩ : WObj))]) ∧
        s2 = { s1 with book := (s1.book ++ wt), wakes := s1.wakes ++ wt.map Prod.fst } ∧ (wt = [] ∨ ∃ nt w, wt = [(nt, w)] ∧ nt ∈ ["CrespoHernandez", "IEC-TI-2019"]) := by
    cases hat : a.turb with
    | none =>
      rw [hat] at h2
      simp only [optPart, Except.ok.injEq] at h2
      exact ⟨[], by simp [asked], by simp [← h2], Or.inl rfl⟩
    | some t =>
      rw [hat] at h2
      simp only [optPart] at h2
      rcases readTurb_ok h2 with ⟨nt, f1, f2, f3⟩ | ⟨nt, clt, k0, stn, st, kt, f1, f2, f3, f4, f5, f6, f7, f8⟩
      · refine ⟨[], ?_, by simp [f3], Or.inl rfl⟩
        simp [asked, f1, f2]
      · refine ⟨[(nt, ⟨clt, ind, some st, some kt, none⟩)], ?_, ?_, Or.inr ⟨nt, _, rfl, turbulenceClass_name f3⟩⟩
        · simp only [Option.map_some, f1, asked, if_neg f2]
          refine ⟨t, clt, st, stn, kt, rfl, f3, f5, f6, ?_, rfl⟩
          cases htk : t.kcoef with
          | none =>
            rw [htk] at f4
            simp only [turbK, Except.ok.injEq] at f4
            subst f4
            exact grows e4 f7
          | some c' =>
            rw [htk] at f4
            exact grows f4 f7
        · rw [f8, e8]
          have : nt ≠ n := by
            have a1 := turbulenceClass_name f3
            have a2 := deficitClass_name e2
            rintro rfl
            simp only [List.mem_cons, List.not_mem_nil, or_false] at a1 a2
            rcases a1 with rfl | rfl
            · exact absurd a2 (by decide)
            · exact absurd a2 (by decide)
          simp [addWake, put, this.symm]
  obtain ⟨wt, ht1, ht2, ht3⟩ := ht
  have hb : ∃ wb, (match asked a.blockage with
        | none => wb = []
        | some nb => ∃ clb, blockageClass nb = some clb ∧ wb = [(nb, (⟨clb, ind, none, none, none⟩ : WObj))]) ∧
        s3 = { s2 with book := (s2.book ++ wb), wakes := s2.wakes ++ wb.map Prod.fst, algoType := if (asked a.blockage).isSome then "Iterative" else "Downwind" } ∧
        (wb = [] ∨ ∃ nb w, wb = [(nb, w)] ∧ nb ∈ ["RankineHalfBody", "Rathmann", "SelfSimilarityDeficit", "SelfSimilarityDeficit2020"]) := by
    have hty : s2.algoType = "Downwind" := by rw [ht2, e8]; rfl
    cases hab : a.blockage with
    | none =>
      rw [hab] at h3
      simp only [optPart, Except.ok.injEq] at h3
      refine ⟨[], by simp [asked], ?_, Or.inl rfl⟩
      rw [← h3]
      simp [asked, ← hty]
    | some nm =>
      rw [hab] at h3
      simp only [optPart] at h3
      rcases readBlockage_ok h3 with ⟨nb, f1, f2, f3⟩ | ⟨nb, clb, f1, f2, f3, f4⟩
      · refine ⟨[], by simp [asked, f1, f2], ?_, Or.inl rfl⟩
        rw [f3]
        simp [asked, f1, f2, ← hty]
      · refine ⟨[(nb, ⟨clb, ind, none, none, none⟩)], ?_, ?_, Or.inr ⟨nb, _, rfl, blockageClass_name f3⟩⟩
        · simp only [f1, asked, if_neg f2]
          exact ⟨clb, f3, rfl⟩
        · rw [f4]
          have a1 := blockageClass_name f3
          have hn : nb ≠ n := by
            have a2 := deficitClass_name e2
            rintro rfl
            simp only [List.mem_cons, List.not_mem_nil, or_false] at a1 a2
            rcases a1 with rfl | rfl | rfl | rfl <;> exact absurd a2 (by decide)
          have hput : ∀ w : WObj, put nb w s2.book = s2.book ++ [(nb, w)] := by
            intro w
            rw [ht2, e8]
            rcases ht3 with rfl | ⟨nt, w', rfl, hm⟩
            · simp [addWake, put, hn.symm]
            · have : nt ≠ nb := by
                rintro rfl
                simp only [List.mem_cons, List.not_mem_nil, or_false] at a1 hm
                rcases a1 with rfl | rfl | rfl | rfl <;> exact absurd hm (by decide)
              simp [addWake, put, hn.symm, this]
          simp [addWake, hput, asked, f1, f2]
  obtain ⟨wb, hb1, hb2, hb3⟩ := hb
  have hr : s4 = { s3 with rotor := a.rotor.map rotorName, pwakes := a.rotor.map pwName } ∧ ∀ r, a.rotor = some r → r.nx = r.ny := by
    have e0 : s3.rotor = none ∧ s3.pwakes = none := by
      rw [hb2, ht2, e8]
      exact ⟨rfl, rfl⟩
    cases har : a.rotor with
    | none =>
      rw [har] at h4
      simp only [optPart, Except.ok.injEq] at h4
      rw [← h4]
      refine ⟨?_, by simp⟩
      exact noRotor _ e0.1 e0.2
    | some r =>
      rw [har] at h4
      obtain ⟨g1, g2⟩ := readRotor_ok h4
      exact ⟨g2, fun r' hr' => by cases hr'; exact g1⟩
  have hs : s.wakes = s4.wakes ∧ s.book = s4.book ∧ s.algoType = s4.algoType ∧ s.rotor = s4.rotor ∧ s.pwakes = s4.pwakes ∧
      (match a.deflection with
        | none => s.frame = none
        | some nm => ∃ n cls ind, nm = some n ∧ deflMap.lookup n = some cls ∧ inductionModel a.induction = some ind ∧ s.frame = some n ∧
            s.frames.lookup n = some (newFrame cls ind)) := by
    have e0 : s4.frame = none := by
      rw [hr.1, hb2, ht2, e8]
      rfl
    cases had : a.deflection with
    | none =>
      rw [had] at h
      simp only [optPart, Except.ok.injEq] at h
      subst h
      exact ⟨rfl, rfl, rfl, rfl, rfl, e0⟩
    | some nm =>
      rw [had] at h
      obtain ⟨n', cls', g1, g2, g3⟩ := readDeflection_ok h
      rw [g3]
      refine ⟨rfl, rfl, rfl, rfl, rfl, n', cls', ind, g1, g2, hind', rfl, ?_⟩
      rw [lookup_put, if_pos rfl]
  obtain ⟨q1, q2, q3, q4, q5, q6⟩ := hs
  refine ⟨(n, ⟨cls, ind, some su, some k, d.ceps⟩) :: (wt ++ wb), ⟨ind, d, n, cls, c, sup, sn, su, k, hind', item_ok hd, e1, e2, e3, item_ok hsup, e5, e6, grows e4 e7, wt, wb,
    rfl, ht1, hb1⟩, ?_, ?_, ?_, ?_, ?_, ?_, hr.2, q6⟩
  · have a2 := deficitClass_name e2
    simp only [List.mem_cons, List.not_mem_nil, or_false] at a2
    rcases ht3 with rfl | ⟨nt, w', rfl, hm⟩
    · rcases hb3 with rfl | ⟨nb, w', rfl, hm⟩
      · simp
      · simp only [List.mem_cons, List.not_mem_nil, or_false] at hm
        simp only [List.nil_append, List.map_cons, List.map_nil, List.nodup_cons, List.mem_singleton, List.not_mem_nil, not_false_iff, List.nodup_nil, and_true]
        rintro rfl
        rcases hm with rfl | rfl | rfl | rfl <;> exact absurd a2 (by decide)
    · simp only [List.mem_cons, List.not_mem_nil, or_false] at hm
      rcases hb3 with rfl | ⟨nb, w', rfl, hm'⟩
      · simp only [List.append_nil, List.map_cons, List.map_nil, List.nodup_cons, List.mem_singleton, List.not_mem_nil, not_false_iff, List.nodup_nil, and_true]
        rintro rfl
        rcases hm with rfl | rfl <;> exact absurd a2 (by decide)
      · simp only [List.mem_cons, List.not_mem_nil, or_false] at hm'
        simp only [List.cons_append, List.nil_append, List.map_cons, List.map_nil, List.nodup_cons, List.mem_cons, List.mem_singleton, List.not_mem_nil, not_false_iff,
          List.nodup_nil, and_true, or_false, not_or]
        refine ⟨⟨?_, ?_⟩, ?_⟩
        · rintro rfl
          rcases hm with rfl | rfl <;> exact absurd a2 (by decide)
        · rintro rfl
          rcases hm' with rfl | rfl | rfl | rfl <;> exact absurd a2 (by decide)
        · rintro rfl
          rcases hm' with rfl | rfl | rfl | rfl <;> exact absurd hm (by decide)
  · rw [q1, hr.1, hb2, ht2, e8]
    simp [addWake]
  · rw [q2, hr.1, hb2, ht2, e8]
    simp [addWake, put]
  · rw [q3, hr.1, hb2]
  · rw [q4, hr.1]
  · rw [q5, hr.1]

lemma mapM_wakeOf (l bk : List (String × WObj)) (hn : (bk.map Prod.fst).Nodup) (hs : ∀ x ∈ l, x ∈ bk) : (l.map Prod.fst).mapM (wakeOf bk) = .ok l := by
  induction l with
  | nil => rfl
  | cons x l ih =>
    have h1 : wakeOf bk x.1 = .ok x := by
      unfold wakeOf
      rw [mem_lookup hn (hs x (by simp))]
      rfl
    rw [List.map_cons, List.mapM_cons, h1, ih (fun y hy => hs y (by simp [hy]))]
    rfl

/-- The choice of models for an analysis. -/
lemma readAttributes_ok {a : Analysis} {g : Alg} (h : readAttributes a = .ok g) :
    Wanted a g.wakes ∧ (g.wakes.map Prod.fst).Nodup ∧ (g.iterative = true ↔ (asked a.blockage).isSome) ∧
      rotorBook ((a.rotor.map rotorName).getD (some "centre")) = .ok g.rotor ∧ setPw (pwParam (a.rotor.map pwName)) g.wakes = .ok g.pw ∧
      (∀ r, a.rotor = some r → r.nx = r.ny) ∧
      (match a.deflection with
        | none => g.frame = ⟨"RotorWD", none⟩
        | some nm => ∃ n cls ind, nm = some n ∧ deflMap.lookup n = some cls ∧ inductionModel a.induction = some ind ∧ g.frame = newFrame cls ind) := by
  unfold readAttributes at h
  obtain ⟨s, h1, h⟩ := bind_ok h
  obtain ⟨ws, w1, w2, w3, w4, w5, w6, w7, w8, w9⟩ := readAnalysis_ok h1
  unfold mkAlg at h
  obtain ⟨r, hr, h⟩ := bind_ok h
  obtain ⟨f, hf, h⟩ := bind_ok h
  obtain ⟨ws', hws, h⟩ := bind_ok h
  obtain ⟨pw, hpw, h⟩ := bind_ok h
  have := pure_ok h
  subst this
  rw [w3, w4, mapM_wakeOf ws ws w2 (fun x hx => hx)] at hws
  simp only [Except.ok.injEq] at hws
  subst hws
  rw [w6] at hr
  rw [w7] at hpw
  refine ⟨w1, w2, ?_, hr, hpw, w8, ?_⟩
  · simp only [w5, decide_eq_true_eq]
    by_cases hb : (asked a.blockage).isSome
    · simp [hb]
    · simp [hb]
  · cases hd : a.deflection with
    | none =>
      rw [hd] at w9
      simp only at w9
      simp only [frameOf, w9, Except.ok.injEq] at hf
      exact hf.symm
    | some nm =>
      rw [hd] at w9
      obtain ⟨n, cls, ind, v1, v2, v3, v4, v5⟩ := w9
      simp only [frameOf, v4, v5, item, Except.ok.injEq] at hf
      exact ⟨n, cls, ind, v1, v2, v3, hf.symm⟩

/-! ### The wake models -/

/-- An analysis with deficit, turbulence, blockage and rotor averaging, used as example. -/
def exAna : Analysis where
  superposition := some [("ws_superposition", "Squared"), ("ti_superposition", "Linear")]
  windDeficit := some { name := some "Bastankhah2014", effWs := some false, kcoef := some { ka := some (some (2/5)), kb := some (1/100), freeTi := some true }, ceps := some (1/4) }
  turb := some { name := some "IEC-TI-2019" }
  blockage := some (some "SelfSimilarityDeficit")
  rotor := some { grid := "grid", nx := 3, ny := 3, background := some "grid", wake := some "auto" }

/-- The algorithm of the example. -/
def exAlg : Alg where
  iterative := true
  rotor := .grid 3
  frame := ⟨"RotorWD", none⟩
  wakes := [("Bastankhah2014", ⟨"Bastankhah2014", "Betz", some "ws_quadratic_amb", some ⟨none, some (2/5), some (1/100), .ambTi⟩, some (1/4)⟩),
    ("IEC-TI-2019", ⟨"IECTIWake", "Betz", some "ti_linear", some ⟨none, some (2/5), some (1/100), .ambTi⟩, none⟩),
    ("SelfSimilarityDeficit", ⟨"SelfSimilar", "Betz", none, none, none⟩)]
  pw := [("Bastankhah2014", .axiwake 6), ("IEC-TI-2019", .topHat), ("SelfSimilarityDeficit", .grid 3)]

deriving instance DecidableEq for Alg

theorem C69_example : readAttributes exAna = .ok exAlg := by decide +kernel

/-- Every accepted windIO analysis gives exactly the wake models it asks for, in the order wind deficit, turbulence, blockage: for each the class of its name, the
chosen induction model and superposition, and a wake growth with the value `k_a * TI + k_b` for every turbulence intensity, ambient or local as chosen. The
turbulence model uses its own wake expansion, or else the one of the wind deficit. -/
theorem C69_wake_models (a : Analysis) (g : Alg) (h : readAttributes a = .ok g) : Wanted a g.wakes := (readAttributes_ok h).1

example : ∃ a g, readAttributes a = .ok g ∧ g.wakes.length = 3 := ⟨exAna, exAlg, C69_example, rfl⟩

/-- The names of the wake models are different, so that no model replaces another one in the model book. -/
theorem C69_names_distinct (a : Analysis) (g : Alg) (h : readAttributes a = .ok g) : (g.wakes.map Prod.fst).Nodup := (readAttributes_ok h).2.1

example : ∃ a g, readAttributes a = .ok g ∧ g.wakes ≠ [] := ⟨exAna, exAlg, C69_example, by decide⟩

/-- The algorithm is iterative exactly if a blockage model is asked for. -/
theorem C69_iterative (a : Analysis) (g : Alg) (h : readAttributes a = .ok g) : g.iterative = true ↔ ∃ n, a.blockage = some (some n) ∧ n ≠ "None" ∧ n ≠ "none" := by
  rw [(readAttributes_ok h).2.2.1]
  cases hb : a.blockage with
  | none => simp [asked]
  | some o =>
    cases o with
    | none => simp [asked]
    | some n =>
      simp only [asked]
      split_ifs with hn
      · simp only [Option.isSome_none, Bool.false_eq_true, Option.some.injEq, exists_eq_left', false_iff]
        tauto
      · simp only [Option.isSome_some, Option.some.injEq, exists_eq_left', true_iff]
        tauto

example : ∃ a g, readAttributes a = .ok g ∧ g.iterative = true := ⟨exAna, exAlg, C69_example, rfl⟩

/-- An analysis whose deficit has a constant wake expansion. -/
def exConst : Analysis where
  superposition := some [("ws_superposition", "Linear")]
  wakeModel := some { name := some "Jensen", kcoef := some { ka := some none, kb := some (1/20) } }

example : ∃ g, readAttributes exConst = .ok g ∧ g.iterative = false ∧ g.wakes = [("Jensen", ⟨"JensenWake", "Betz", some "ws_linear", some ⟨some (1/20), none, none, .ti⟩, none⟩)] :=
  ⟨⟨false, .centre, ⟨"RotorWD", none⟩, [("Jensen", ⟨"JensenWake", "Betz", some "ws_linear", some ⟨some (1/20), none, none, .ti⟩, none⟩)], [("Jensen", .topHat)]⟩,
    by decide +kernel⟩

/-! ### Acceptance -/

/-- A name that stands for no model. -/
def NoModel (n : String) : Prop := n = "None" ∨ n = "none"

/-- What an analysis has to contain. -/
structure Valid (a : Analysis) : Prop where
  ind : a.induction = none ∨ a.induction = some "1D" ∨ a.induction = some "Madsen"
  ws : ∃ sup sn, a.superposition = some sup ∧ sup.lookup "ws_superposition" = some sn ∧ (sn = "Linear" ∨ sn = "Squared" ∨ sn = "Product")
  deficit : ∃ d n c ka, Analysis.deficit a = some d ∧ d.name = some n ∧ (n = "Jensen" ∨ n = "Bastankhah2014" ∨ n = "Bastankhah2016") ∧ d.kcoef = some c ∧ c.ka = some ka ∧
    (d.ceps.isSome → n = "Bastankhah2014")
  turb : ∀ t, a.turb = some t → ∃ n, t.name = some n ∧ (NoModel n ∨ ((n = "CrespoHernandez" ∨ n = "IEC-TI-2019") ∧ (∀ c, t.kcoef = some c → c.ka.isSome) ∧
    ∃ sup sn, a.superposition = some sup ∧ sup.lookup "ti_superposition" = some sn ∧ (sn = "Linear" ∨ sn = "Squared")))
  block : ∀ nm, a.blockage = some nm → ∃ n, nm = some n ∧ (NoModel n ∨ n = "RankineHalfBody" ∨ n = "Rathmann" ∨ n = "SelfSimilarityDeficit" ∨ n = "SelfSimilarityDeficit2020")
  rotor : ∀ r, a.rotor = some r → r.nx = r.ny
  defl : ∀ nm, a.deflection = some nm → nm = some "None" ∨ nm = some "Batankhah2016"

lemma readK_some {c : KCoef} {ka : Option ℚ} (h : c.ka = some ka) : readK c = .ok (ka, c.kb.getD 0, c.freeTi.getD false) := by
  unfold readK
  rw [h]
  rfl

lemma newWake_some {cls ind sup : String} {sb : Option ℚ} (kk : Option ℚ × ℚ × Bool) (h1 : cls ∈ wakeClasses)
    (h2 : sb.isSome → cls ∈ ["Bastankhah2014", "TurbOParkWake", "CrespoHernandezTIWake"]) : ∃ w, newWake cls ind sup sb (kArgs kk) = .ok w := by
  obtain ⟨k, hk⟩ := growth_ok kk
  refine ⟨⟨cls, ind, some sup, some k, sb⟩, ?_⟩
  unfold newWake
  rw [if_neg (not_not.mpr h1), if_neg (by rintro ⟨a, b⟩; exact b (h2 a)), hk]
  rfl

lemma ok_bind {α β : Type} {x : Except Err α} {a : α} (f : α → Except Err β) (h : x = .ok a) : (x >>= f) = f a := by
  rw [h]
  rfl

/-- An analysis is read without error exactly if it is valid. -/
theorem C69_accepted_iff (a : Analysis) : (∃ s, readAnalysis a {} = .ok s) ↔ Valid a := by
  constructor
  · rintro ⟨s, h⟩
    unfold readAnalysis at h
    obtain ⟨sup, hsup, h⟩ := bind_ok h
    obtain ⟨ind, hind, h⟩ := bind_ok h
    obtain ⟨d, hd, h⟩ := bind_ok h
    obtain ⟨⟨s1, kk⟩, h1, h⟩ := bind_ok h
    obtain ⟨s2, h2, h⟩ := bind_ok h
    obtain ⟨s3, h3, h⟩ := bind_ok h
    obtain ⟨s4, h4, h⟩ := bind_ok h
    rw [deficit_eq] at hd
    have hind' := lookup_ind (item_ok hind)
    obtain ⟨n, cls, c, sn, su, k, e1, e2, e2', e2'', e3, e4, e5, e6, e7, e8⟩ := readDeficit_ok h1
    refine ⟨?_, ⟨sup, sn, item_ok hsup, e5, ?_⟩, ?_, ?_, ?_, ?_, ?_⟩
    · unfold inductionModel at hind'
      split at hind' <;> simp_all
    · unfold wsSuperposition at e6
      split at e6 <;> simp_all
    · obtain ⟨ka, hka, -⟩ := readK_ok e4
      refine ⟨d, n, c, ka, item_ok hd, e1, ?_, e3, hka, e2''⟩
      have := deficitClass_name e2
      simp only [List.mem_cons, List.not_mem_nil, or_false] at this
      rcases this with h | h | h | h
      · exact Or.inl h
      · exact Or.inr (Or.inl h)
      · exact Or.inr (Or.inr h)
      · exact absurd h e2'
    · intro t ht
      rw [ht] at h2
      rcases readTurb_ok h2 with ⟨nt, f1, f2, f3⟩ | ⟨nt, clt, k0, stn, st, kt, f1, f2, f3, f4, f5, f6, f7, f8⟩
      · exact ⟨nt, f1, Or.inl f2⟩
      · refine ⟨nt, f1, Or.inr ⟨by simpa using turbulenceClass_name f3, ?_, sup, stn, item_ok hsup, f5, ?_⟩⟩
        · intro c' hc'
          rw [hc'] at f4
          obtain ⟨ka, hka, -⟩ := readK_ok f4
          simp [hka]
        · unfold tiSuperposition at f6
          split at f6 <;> simp_all
    · intro nm hnm
      rw [hnm] at h3
      rcases readBlockage_ok h3 with ⟨nb, f1, f2, f3⟩ | ⟨nb, clb, f1, f2, f3, f4⟩
      · exact ⟨nb, f1, Or.inl f2⟩
      · exact ⟨nb, f1, Or.inr (by simpa using blockageClass_name f3)⟩
    · intro r hr
      rw [hr] at h4
      exact (readRotor_ok h4).1
    · intro nm hnm
      rw [hnm] at h
      obtain ⟨n', cls', g1, g2, g3⟩ := readDeflection_ok h
      have := lookup_mem g2
      simp only [deflMap, List.mem_cons, Prod.mk.injEq, List.not_mem_nil, or_false] at this
      rcases this with ⟨rfl, -⟩ | ⟨rfl, -⟩
      · exact Or.inl g1
      · exact Or.inr g1
  · rintro ⟨v1, ⟨sup, sn, v2, v3, v4⟩, ⟨d, n, c, ka, v5, v6, v7, v8, v9, v10⟩, v11, v12, v13, v14⟩
    have hind : ∃ ind, indMap.lookup (a.induction.getD "1D") = some ind := by
      rcases v1 with h | h | h <;> rw [h]
      · exact ⟨"Betz", by decide⟩
      · exact ⟨"Betz", by decide⟩
      · exact ⟨"Madsen", by decide⟩
    obtain ⟨ind, hind⟩ := hind
    have hdef : ∃ r, readDeficit d sup ind {} = .ok r := by
      have hc : ∃ cls, windDefMap.lookup n = some cls ∧ cls ∈ wakeClasses ∧ (d.ceps.isSome → cls ∈ ["Bastankhah2014", "TurbOParkWake", "CrespoHernandezTIWake"]) := by
        rcases v7 with rfl | rfl | rfl
        · exact ⟨"JensenWake", by decide, by decide, fun hs => absurd (v10 hs) (by decide)⟩
        · exact ⟨"Bastankhah2014", by decide, by decide, fun hs => by decide⟩
        · exact ⟨"Bastankhah2016", by decide, by decide, fun hs => absurd (v10 hs) (by decide)⟩
      obtain ⟨cls, c1, c2, c3⟩ := hc
      have hs : ∃ su, (wsSup (d.effWs.getD true)).lookup sn = some su := by
        generalize d.effWs.getD true = b
        rcases v4 with rfl | rfl | rfl <;> cases b
        · exact ⟨"ws_linear_amb", by decide⟩
        · exact ⟨"ws_linear", by decide⟩
        · exact ⟨"ws_quadratic_amb", by decide⟩
        · exact ⟨"ws_quadratic", by decide⟩
        · exact ⟨"ws_product", by decide⟩
        · exact ⟨"ws_product", by decide⟩
      obtain ⟨su, hs⟩ := hs
      obtain ⟨w, hw⟩ := newWake_some (ind := ind) (sup := su) (ka, c.kb.getD 0, c.freeTi.getD false) c2 c3
      unfold readDeficit
      simp only [v6, v8, c1, v3, hs, item, ok_bind _ rfl, readK_some v9, hw]
      exact ⟨_, rfl⟩
    obtain ⟨⟨s1, kk⟩, h1⟩ := hdef
    have h2 : ∃ s2, optPart (fun t s => readTurb t sup ind kk s) a.turb s1 = .ok s2 := by
      cases hat : a.turb with
      | none => exact ⟨s1, rfl⟩
      | some t =>
        obtain ⟨nt, t1, t2⟩ := v11 t hat
        simp only [optPart, readTurb, t1, item, ok_bind _ rfl]
        by_cases hn : nt = "None" ∨ nt = "none"
        · exact ⟨s1, by rw [if_pos hn]; rfl⟩
        · rw [if_neg hn]
          rcases t2 with t2 | ⟨t2, t3, sup', sn', t4, t5, t6⟩
          · exact absurd t2 hn
          · rw [v2] at t4
            cases t4
            have hc : ∃ cls, turbMap.lookup nt = some cls ∧ cls ∈ wakeClasses := by
              rcases t2 with rfl | rfl
              · exact ⟨"CrespoHernandezTIWake", by decide, by decide⟩
              · exact ⟨"IECTIWake", by decide, by decide⟩
            obtain ⟨cls, c1, c2⟩ := hc
            have hk : ∃ k0, turbK t.kcoef kk = .ok k0 := by
              cases htk : t.kcoef with
              | none => exact ⟨kk, rfl⟩
              | some c' =>
                have := t3 c' htk
                obtain ⟨x, hx⟩ := Option.isSome_iff_exists.mp this
                exact ⟨_, readK_some hx⟩
            obtain ⟨k0, hk⟩ := hk
            have hs : ∃ su, tiSup.lookup sn' = some su := by
              rcases t6 with rfl | rfl
              · exact ⟨"ti_linear", by decide⟩
              · exact ⟨"ti_quadratic", by decide⟩
            obtain ⟨su, hs⟩ := hs
            obtain ⟨w, hw⟩ := newWake_some (ind := ind) (sup := su) (sb := none) k0 c2 (by simp)
            simp only [c1, hk, t5, hs, hw, ok_bind _ rfl]
            exact ⟨_, rfl⟩
    obtain ⟨s2, h2⟩ := h2
    have h3 : ∃ s3, optPart (fun n s => readBlockage n ind s) a.blockage s2 = .ok s3 := by
      cases hab : a.blockage with
      | none => exact ⟨s2, rfl⟩
      | some nm =>
        obtain ⟨nb, t1, t2⟩ := v12 nm hab
        simp only [optPart, readBlockage, t1, item, ok_bind _ rfl]
        by_cases hn : nb = "None" ∨ nb = "none"
        · exact ⟨s2, by rw [if_pos hn]; rfl⟩
        · rw [if_neg hn]
          have hc : ∃ cls, blockMap.lookup nb = some cls ∧ cls ∈ wakeClasses := by
            rcases t2 with t2 | rfl | rfl | rfl | rfl
            · exact absurd t2 hn
            · exact ⟨"RankineHalfBody", by decide, by decide⟩
            · exact ⟨"Rathmann", by decide, by decide⟩
            · exact ⟨"SelfSimilar", by decide, by decide⟩
            · exact ⟨"SelfSimilar2020", by decide, by decide⟩
          obtain ⟨cls, c1, c2⟩ := hc
          simp only [c1, newBlock, c2, not_true_eq_false, if_false, ok_bind _ rfl]
          exact ⟨_, rfl⟩
    obtain ⟨s3, h3⟩ := h3
    have h4 : ∃ s4, optPart readRotor a.rotor s3 = .ok s4 := by
      cases har : a.rotor with
      | none => exact ⟨s3, rfl⟩
      | some r => exact ⟨_, by simp only [optPart, readRotor]; rw [if_neg (not_not.mpr (v13 r har))]⟩
    obtain ⟨s4, h4⟩ := h4
    have h5 : ∃ s, optPart (fun n s => readDeflection n ind s) a.deflection s4 = .ok s := by
      cases had : a.deflection with
      | none => exact ⟨s4, rfl⟩
      | some nm =>
        rcases v14 nm had with rfl | rfl
        · exact ⟨_, by simp only [optPart, readDeflection, item, ok_bind _ rfl]; rfl⟩
        · exact ⟨_, by simp only [optPart, readDeflection, item, ok_bind _ rfl]; rfl⟩
    obtain ⟨s, h5⟩ := h5
    refine ⟨s, ?_⟩
    unfold readAnalysis
    rw [v2, hind, deficit_eq, v5]
    simp only [item, ok_bind _ rfl, h1, h2, h3, h4, h5]

example : Valid exAna := by
  obtain ⟨s, h, -⟩ := bind_ok (show readAttributes exAna = .ok exAlg from C69_example)
  exact (C69_accepted_iff _).mp ⟨s, h⟩


/-- False of the code: every wind deficit model of the list of names is accepted. The name TurbOPark is looked up as a class that does not exist. -/
theorem C69_turbopark_refused (a : Analysis) (d : Deficit) (hd : Analysis.deficit a = some d) (hn : d.name = some "TurbOPark") : ∀ g, readAttributes a ≠ .ok g := by
  intro g h
  obtain ⟨s, h1, -⟩ := bind_ok (show _ = _ from h)
  obtain ⟨-, -, ⟨d', n, c, ka, v5, v6, v7, -⟩, -⟩ := (C69_accepted_iff a).mp ⟨s, h1⟩
  rw [hd] at v5
  cases v5
  rw [hn] at v6
  cases v6
  exact absurd v7 (by decide)

example : ∃ a d, Analysis.deficit a = some d ∧ d.name = some "TurbOPark" :=
  ⟨{ exConst with wakeModel := some { name := some "TurbOPark", kcoef := none } }, { name := some "TurbOPark", kcoef := none }, rfl, rfl⟩

/-- False of the code: the deflection model Bastankhah2016 is accepted. Only the misspelt name is. -/
theorem C69_deflection_refused (a : Analysis) (hd : a.deflection = some (some "Bastankhah2016")) : ∀ g, readAttributes a ≠ .ok g := by
  intro g h
  obtain ⟨s, h1, -⟩ := bind_ok (show _ = _ from h)
  have := ((C69_accepted_iff a).mp ⟨s, h1⟩).defl _ hd
  simp at this

example : ∃ a : Analysis, a.deflection = some (some "Bastankhah2016") := ⟨{ exConst with deflection := some (some "Bastankhah2016") }, rfl⟩

/-- The yawed wakes frame needs the misspelt name. -/
theorem C69_deflection_misspelt : ∃ g, readAttributes { exConst with deflection := some (some "Batankhah2016") } = .ok g ∧ g.frame = ⟨"YawedWakes", some "Betz"⟩ :=
  ⟨⟨false, .centre, ⟨"YawedWakes", some "Betz"⟩, [("Jensen", ⟨"JensenWake", "Betz", some "ws_linear", some ⟨some (1/20), none, none, .ti⟩, none⟩)], [("Jensen", .topHat)]⟩,
    by decide +kernel⟩

/-- False of the code: a `ceps` entry is accepted for all deficit models. Jensen and Bastankhah2016 are refused. -/
theorem C69_ceps_refused (a : Analysis) (d : Deficit) (hd : Analysis.deficit a = some d) (hn : d.name = some "Jensen" ∨ d.name = some "Bastankhah2016") (hc : d.ceps.isSome) :
    ∀ g, readAttributes a ≠ .ok g := by
  intro g h
  obtain ⟨s, h1, -⟩ := bind_ok (show _ = _ from h)
  obtain ⟨-, -, ⟨d', n, c, ka, v5, v6, v7, -, -, v10⟩, -⟩ := (C69_accepted_iff a).mp ⟨s, h1⟩
  rw [hd] at v5
  cases v5
  have := v10 hc
  rw [this] at v6
  rw [v6] at hn
  exact absurd hn (by decide)

example : ∃ a d, Analysis.deficit a = some d ∧ (d.name = some "Jensen" ∨ d.name = some "Bastankhah2016") ∧ d.ceps.isSome :=
  ⟨{ exConst with wakeModel := some { name := some "Jensen", kcoef := none, ceps := some 1 } }, { name := some "Jensen", kcoef := none, ceps := some 1 }, rfl, Or.inl rfl, rfl⟩

/-- False of the code: background averaging None means the default rotor model. The algorithm is refused. -/
theorem C69_no_background_refused (a : Analysis) (r : RotorAvg) (hr : a.rotor = some r) (hb : r.background = none ∨ r.background = some "none" ∨ r.background = some "None") :
    ∀ g, readAttributes a ≠ .ok g := by
  intro g h
  have := (readAttributes_ok h).2.2.2.1
  have hn : rotorName r = none := by
    rcases hb with hb | hb | hb
    · simp [rotorName, hb]
    · simp [rotorName, hb]
    · simp [rotorName, hb]
  rw [hr, Option.map_some, hn] at this
  simp [rotorBook] at this

example : ∃ (a : Analysis) (r : RotorAvg), a.rotor = some r ∧ (r.background = none ∨ r.background = some "none" ∨ r.background = some "None") :=
  ⟨{ exConst with rotor := some ⟨"grid", 3, 3, none, none⟩ }, ⟨"grid", 3, 3, none, none⟩, rfl, Or.inl rfl⟩

/-! ### Rotor averaging and partial wakes -/

lemma afterPrefix_append (p s : List Char) : afterPrefix p (p ++ s) = some s := by
  induction p with
  | nil => rfl
  | cons c p ih => simp [afterPrefix, ih]

lemma numberAfter_grid (n : ℕ) : numberAfter "grid" (gridName n) = some n := by
  unfold numberAfter gridName
  rw [String.toList_append, afterPrefix_append]
  have h1 := Foxes.Props.Factory.digitsVal_repr n
  have h2 := Foxes.Props.Factory.isDigit_repr n
  have h3 : (Nat.repr n).toList ≠ [] := by
    rw [Nat.toList_repr]
    exact Nat.toDigits_ne_nil
  generalize (Nat.repr n).toList = l at h1 h2 h3
  cases l with
  | nil => exact absurd rfl h3
  | cons c l =>
    simp only
    rw [if_pos h2, h1]

lemma squareRoot_sq (n : ℕ) : squareRoot (n * n) = .ok n := by
  unfold squareRoot
  rw [Nat.sqrt_eq]
  simp

lemma gridName_ne_centre (n : ℕ) : gridName n ≠ "centre" := by
  intro h
  have := numberAfter_grid n
  rw [h] at this
  revert this
  have : numberAfter "grid" "centre" = none := by decide
  rw [this]
  simp

lemma rotorBook_grid (n : ℕ) : rotorBook (some (gridName (n * n))) = .ok (.grid n) := by
  unfold rotorBook
  simp only
  rw [if_neg (gridName_ne_centre _), numberAfter_grid]
  simp only [squareRoot_sq]

lemma gridName_ne (n : ℕ) (s : String) (h : numberAfter "grid" s = none) : gridName n ≠ s := by
  rintro rfl
  rw [numberAfter_grid] at h
  cases h

lemma axi_gridName (n : ℕ) : numberAfter "axiwake" (gridName n) = none := by
  unfold numberAfter gridName
  rw [String.toList_append]
  rfl

lemma pwBook_grid (n : ℕ) : pwBook (gridName (n * n)) = .ok (.grid n) := by
  unfold pwBook
  rw [if_neg (gridName_ne _ _ (by decide)), if_neg (gridName_ne _ _ (by decide)), if_neg (gridName_ne _ _ (by decide)), axi_gridName, numberAfter_grid]
  simp only [squareRoot_sq]

/-- The rotor model: the centre if there is no rotor averaging or the background is averaged at the centre, and for the grid the square grid with as many points in both
directions as asked for. -/
theorem C69_rotor (a : Analysis) (g : Alg) (h : readAttributes a = .ok g) :
    (a.rotor = none → g.rotor = .centre) ∧
    ∀ r, a.rotor = some r → r.nx = r.ny ∧ (r.background = some "center" ∨ r.background = some "centre" → g.rotor = .centre) ∧
      (r.background = some "grid" → g.rotor = .grid r.nx) := by
  obtain ⟨-, -, -, h4, -, h6, -⟩ := readAttributes_ok h
  refine ⟨fun hn => ?_, fun r hr => ⟨h6 r hr, fun hb => ?_, fun hb => ?_⟩⟩
  · rw [hn] at h4
    simpa [rotorBook] using h4.symm
  · rw [hr] at h4
    have : rotorName r = some "centre" := by
      rcases hb with hb | hb <;> simp [rotorName, hb]
    rw [Option.map_some, this] at h4
    simpa [rotorBook] using h4.symm
  · rw [hr] at h4
    have : rotorName r = some (gridName (r.nx * r.nx)) := by
      simp [rotorName, hb, h6 r hr]
    rw [Option.map_some, this] at h4
    rw [Option.getD_some, rotorBook_grid] at h4
    simpa using h4.symm

example : ∃ a g r, readAttributes a = .ok g ∧ a.rotor = some r ∧ r.background = some "grid" := ⟨exAna, exAlg, _, C69_example, rfl, rfl⟩

/-- The partial wakes a wake model gets if none are chosen. -/
def defaultPartial : Kind → Option PObj
  | .induction => some (.grid 3)
  | .topHat => some .topHat
  | .axi => some (.axiwake 6)
  | .sliced => some (.grid 3)
  | .other => none

lemma default_ok (k : Kind) (p : PObj) : (do let dn ← defaultPw k; pwBook dn) = .ok p ↔ defaultPartial k = some p := by
  cases k with
  | other => simp [defaultPw, defaultPartial, bind, Except.bind]
  | _ =>
    have e : pwBook "grid9" = .ok (.grid 3) := pwBook_grid 3
    have e2 : pwBook "top_hat" = .ok .topHat := by decide
    have e3 : pwBook "axiwake6" = .ok (.axiwake 6) := by decide
    simp [defaultPw, ok_bind _ rfl, defaultPartial, Option.some.injEq, e, e2, e3]

lemma default_compatible {k : Kind} {p : PObj} (h : defaultPartial k = some p) : compatible p k = true := by
  cases k <;> simp [defaultPartial] at h <;> subst h <;> decide

lemma pwLoop_ok {v : PVals} {ws : List (String × WObj)} {i : ℕ} {l : List (String × PObj)} (h : pwLoop v i ws = .ok l) :
    l.map Prod.fst = ws.map Prod.fst ∧ ∀ (j : ℕ) (nw : String × WObj) , ws[j]? = some nw → ∃ p, l[j]? = some (nw.1, p) ∧ pwOne v (i + j) nw = .ok p := by
  induction ws generalizing i l with
  | nil =>
    simp only [pwLoop, Except.ok.injEq] at h
    subst h
    simp
  | cons nw ws ih =>
    unfold pwLoop at h
    obtain ⟨p, h1, h⟩ := bind_ok h
    obtain ⟨r, h2, h⟩ := bind_ok h
    have := pure_ok h
    subst this
    obtain ⟨a1, a2⟩ := ih h2
    refine ⟨by simp [a1], fun j nw' hj => ?_⟩
    cases j with
    | zero =>
      simp only [List.getElem?_cons_zero, Option.some.injEq] at hj
      subst hj
      exact ⟨p, rfl, h1⟩
    | succ j =>
      obtain ⟨q, b1, b2⟩ := a2 j nw' (by simpa using hj)
      exact ⟨q, by simpa using b1, by rw [← b2]; congr 1; omega⟩

lemma pwLoop_total {v : PVals} {ws : List (String × WObj)} {i : ℕ} (h : ∀ (j : ℕ) (nw : String × WObj), ws[j]? = some nw → ∃ p, pwOne v (i + j) nw = .ok p) :
    ∃ l, pwLoop v i ws = .ok l := by
  induction ws generalizing i with
  | nil => exact ⟨[], rfl⟩
  | cons nw ws ih =>
    obtain ⟨p, hp⟩ := h 0 nw rfl
    obtain ⟨l, hl⟩ := ih (i := i + 1) (fun j nw' hj => by
      obtain ⟨q, hq⟩ := h (j + 1) nw' (by simpa using hj)
      exact ⟨q, by rw [← hq]; congr 1; omega⟩)
    refine ⟨(nw.1, p) :: l, ?_⟩
    unfold pwLoop
    rw [Nat.add_zero] at hp
    rw [hp, ok_bind _ rfl, hl]
    rfl

/-- Partial wakes by one name for all wake models (or a list with one name): each wake model gets the named partial wakes if they fit to it, and its default otherwise. -/
theorem C69_partial_name (v : PVals) (s : String) (hv : v = .str s ∨ v = .list [s]) (ws : List (String × WObj)) (l : List (String × PObj)) (h : setPw v ws = .ok l)
    (j : ℕ) (n : String) (w : WObj) (hj : ws[j]? = some (n, w)) :
    ∃ p q, l[j]? = some (n, p) ∧ pwBook s = .ok q ∧ (compatible q (kind w) = true → p = q) ∧ (compatible q (kind w) = false → defaultPartial (kind w) = some p) := by
  have hn : v.normal = .str s := by
    rcases hv with rfl | rfl <;> rfl
  unfold setPw at h
  rw [hn] at h
  obtain ⟨p, h1, h2⟩ := (pwLoop_ok h).2 j _ hj
  simp only [pwOne, pwFromStr] at h2
  obtain ⟨q, h3, h2⟩ := bind_ok h2
  refine ⟨p, q, h1, h3, fun hc => ?_, fun hc => ?_⟩
  · rw [if_pos hc] at h2
    exact pure_ok h2
  · rw [if_neg (by simp [hc])] at h2
    exact (default_ok _ _).mp h2

example : setPw (.str "axiwake6") exAlg.wakes = .ok [("Bastankhah2014", .axiwake 6), ("IEC-TI-2019", .axiwake 6), ("SelfSimilarityDeficit", .grid 3)] := by decide +kernel

/-- Partial wakes by a list of two or more names: the names in the order of the wake models. -/
theorem C69_partial_list (vs : List String) (hv : vs.length ≠ 1) (ws : List (String × WObj)) (l : List (String × PObj)) (h : setPw (.list vs) ws = .ok l) :
    ws.length ≤ vs.length ∧ ∀ (j : ℕ) (n : String) (w : WObj), ws[j]? = some (n, w) → ∃ s p, vs[j]? = some s ∧ pwBook s = .ok p ∧ l[j]? = some (n, p) := by
  have hn : (PVals.list vs).normal = .list vs := by
    rcases vs with _ | ⟨a, _ | ⟨b, t⟩⟩
    · rfl
    · simp at hv
    · rfl
  unfold setPw at h
  rw [hn] at h
  have key : ∀ (j : ℕ) (n : String) (w : WObj), ws[j]? = some (n, w) → ∃ s p, vs[j]? = some s ∧ pwBook s = .ok p ∧ l[j]? = some (n, p) := by
    intro j n w hj
    obtain ⟨p, h1, h2⟩ := (pwLoop_ok h).2 j _ hj
    simp only [pwOne, pwFromList, Nat.zero_add] at h2
    cases hs : vs[j]? with
    | none => simp [hs] at h2
    | some s =>
      rw [hs] at h2
      exact ⟨s, p, rfl, h2, h1⟩
  refine ⟨?_, key⟩
  by_contra hc
  obtain ⟨s, p, h1, -⟩ := key vs.length _ _ (List.getElem?_eq_getElem (by omega))
  simp at h1

example : setPw (.list ["centre", "top_hat", "grid16"]) exAlg.wakes = .ok [("Bastankhah2014", .centre), ("IEC-TI-2019", .topHat), ("SelfSimilarityDeficit", .grid 4)] := by
  decide +kernel

/-- Partial wakes by a dictionary: the named wake models get their partial wakes, all other ones the default. -/
theorem C69_partial_dict (d : List (String × String)) (ws : List (String × WObj)) (l : List (String × PObj)) (h : setPw (.dict d) ws = .ok l)
    (j : ℕ) (n : String) (w : WObj) (hj : ws[j]? = some (n, w)) :
    ∃ p, l[j]? = some (n, p) ∧ (∀ s, d.lookup n = some s → pwBook s = .ok p) ∧ (d.lookup n = none → defaultPartial (kind w) = some p) := by
  unfold setPw at h
  obtain ⟨p, h1, h2⟩ := (pwLoop_ok h).2 j _ hj
  simp only [pwOne, PVals.normal, pwFromDict] at h2
  refine ⟨p, h1, fun s hs => ?_, fun hs => ?_⟩
  · rw [hs] at h2
    exact h2
  · rw [hs] at h2
    exact (default_ok _ _).mp h2

example : setPw (.dict [("IEC-TI-2019", "centre")]) exAlg.wakes = .ok [("Bastankhah2014", .axiwake 6), ("IEC-TI-2019", .centre), ("SelfSimilarityDeficit", .grid 3)] := by
  decide +kernel

/-- Without partial wakes, or with one name for all, every wake model gets partial wakes that fit to it. -/
theorem C69_partial_fit_partial (v : PVals) (hv : v = .none ∨ ∃ s, v = .str s) (ws : List (String × WObj)) (l : List (String × PObj)) (h : setPw v ws = .ok l)
    (j : ℕ) (n : String) (w : WObj) (hj : ws[j]? = some (n, w)) : ∃ p, l[j]? = some (n, p) ∧ compatible p (kind w) = true := by
  rcases hv with rfl | ⟨s, rfl⟩
  · have h' : setPw (.dict []) ws = .ok l := h
    obtain ⟨p, h1, -, h3⟩ := C69_partial_dict [] ws l h' j n w hj
    exact ⟨p, h1, default_compatible (h3 rfl)⟩
  · obtain ⟨p, q, h1, h2, h3, h4⟩ := C69_partial_name _ s (Or.inl rfl) ws l h j n w hj
    refine ⟨p, h1, ?_⟩
    cases hc : compatible q (kind w) with
    | true => rw [h3 hc]; exact hc
    | false => exact default_compatible (h4 hc)

example : ∃ l, setPw .none exAlg.wakes = .ok l ∧ l.length = 3 := ⟨exAlg.pw, by decide +kernel⟩

/-- False of the code: partial wakes that do not fit to the wake model are refused or replaced. In lists and dictionaries they are accepted by the constructor. -/
theorem C69_partial_fit_not : ∃ (v : PVals) (ws : List (String × WObj)) (l : List (String × PObj)) (n : String) (w : WObj) (p : PObj),
    setPw v ws = .ok l ∧ ws = [(n, w)] ∧ l = [(n, p)] ∧ compatible p (kind w) = false :=
  ⟨.dict [("w", "top_hat")], [("w", ⟨"Bastankhah2014", "Betz", none, none, none⟩)], [("w", .topHat)], "w", ⟨"Bastankhah2014", "Betz", none, none, none⟩, .topHat,
    by decide +kernel⟩

/-- The partial wakes of the analysis: the points of the rotor if background and wakes use the grid, the square grid of the size asked for if only the wakes do, and the
defaults without averaging, or with `auto` or none. -/
theorem C69_partial_wakes (a : Analysis) (g : Alg) (h : readAttributes a = .ok g) (j : ℕ) (n : String) (w : WObj) (hj : g.wakes[j]? = some (n, w)) :
    ∃ p, g.pw[j]? = some (n, p) ∧ compatible p (kind w) = true ∧
      (a.rotor = none → defaultPartial (kind w) = some p) ∧
      ∀ r, a.rotor = some r →
        ((r.wake = none ∨ r.wake = some "none" ∨ r.wake = some "None" ∨ r.wake = some "auto") → defaultPartial (kind w) = some p) ∧
        ((r.wake = some "centre" ∨ r.wake = some "center") → p = .centre) ∧
        (r.wake = some "grid" → r.background = some "grid" → p = .rotorPoints) ∧
        (r.wake = some "grid" → r.background ≠ some "grid" → r.grid = "grid" → p = .grid r.nx) := by
  obtain ⟨-, -, -, -, h5, h6, -⟩ := readAttributes_ok h
  have hfit : ∃ p, g.pw[j]? = some (n, p) ∧ compatible p (kind w) = true := by
    apply C69_partial_fit_partial _ _ _ _ h5 j n w hj
    rcases a.rotor.map pwName with _ | _ | s
    · exact Or.inl rfl
    · exact Or.inl rfl
    · exact Or.inr ⟨s, rfl⟩
  obtain ⟨p, hp, hc⟩ := hfit
  have hdef : pwParam (a.rotor.map pwName) = .none → defaultPartial (kind w) = some p := by
    intro hn
    rw [hn] at h5
    have h' : setPw (.dict []) g.wakes = .ok g.pw := h5
    obtain ⟨p', h1, -, h3⟩ := C69_partial_dict [] g.wakes g.pw h' j n w hj
    rw [hp] at h1
    cases h1
    exact h3 rfl
  have hname : ∀ s q, pwParam (a.rotor.map pwName) = .str s → pwBook s = .ok q → (∀ k, compatible q k = true) → p = q := by
    intro s q hs hq hcq
    rw [hs] at h5
    obtain ⟨p', q', h1, h2, h3, -⟩ := C69_partial_name _ s (Or.inl rfl) g.wakes g.pw h5 j n w hj
    rw [hp] at h1
    cases h1
    rw [hq] at h2
    cases h2
    exact h3 (hcq _)
  refine ⟨p, hp, hc, fun hr => hdef (by rw [hr]; rfl), fun r hr => ⟨fun hw => ?_, fun hw => ?_, fun hw hb => ?_, fun hw hb hg => ?_⟩⟩
  · apply hdef
    rw [hr, Option.map_some]
    have : pwName r = none := by
      rcases hw with hw | hw | hw | hw <;> simp [pwName, hw]
    rw [this]
    rfl
  · apply hname "centre" _ _ (by decide) (fun _ => rfl)
    rw [hr, Option.map_some]
    have : pwName r = some "centre" := by
      rcases hw with hw | hw <;> simp [pwName, hw]
    rw [this]
    rfl
  · apply hname "rotor_points" _ _ (by decide) (fun _ => rfl)
    rw [hr, Option.map_some]
    have : pwName r = some "rotor_points" := by
      simp [pwName, hw, hb]
    rw [this]
    rfl
  · apply hname (gridName (r.nx * r.nx)) _ _ (pwBook_grid _) (fun _ => rfl)
    rw [hr, Option.map_some]
    have : pwName r = some (gridName (r.nx * r.nx)) := by
      simp [pwName, hw, hb, hg, h6 r hr]
    rw [this]
    rfl

example : ∃ a g, readAttributes a = .ok g ∧ g.wakes[2]? = some ("SelfSimilarityDeficit", ⟨"SelfSimilar", "Betz", none, none, none⟩) := ⟨exAna, exAlg, C69_example, rfl⟩

lemma deficit_kind {n cls : String} (h : deficitClass n = some cls) (w : WObj) (hw : w.cls = cls) : kind w ≠ .other := by
  unfold deficitClass at h
  unfold kind
  rw [hw]
  split at h <;> simp at h <;> subst h <;> decide

lemma turb_kind {n cls : String} (h : turbulenceClass n = some cls) (w : WObj) (hw : w.cls = cls) : kind w = .topHat := by
  unfold turbulenceClass at h
  unfold kind
  rw [hw]
  split at h <;> simp at h <;> subst h <;> decide

lemma block_kind {n cls : String} (h : blockageClass n = some cls) (w : WObj) (hw : w.cls = cls) : kind w = .induction := by
  unfold blockageClass at h
  unfold kind
  rw [hw]
  split at h <;> simp at h <;> subst h <;> decide

lemma Wanted.kinds {a : Analysis} {ws : List (String × WObj)} (h : Wanted a ws) : ∀ x ∈ ws, kind x.2 ≠ .other := by
  obtain ⟨ind, d, n, cls, c, sup, sn, su, k, -, -, -, h1, -, -, -, -, -, wt, wb, rfl, h2, h3⟩ := h.ex
  intro x hx
  rcases List.mem_cons.mp hx with rfl | hx
  · exact deficit_kind h1 _ rfl
  · rcases List.mem_append.mp hx with hx | hx
    · split at h2
      · rw [h2] at hx
        simp at hx
      · obtain ⟨t, clt, st, stn, kt, -, g1, -, -, -, rfl⟩ := h2
        simp only [List.mem_singleton] at hx
        rw [turb_kind g1 x.2 (by rw [hx])]
        decide
    · split at h3
      · rw [h3] at hx
        simp at hx
      · obtain ⟨clb, g1, rfl⟩ := h3
        simp only [List.mem_singleton] at hx
        rw [block_kind g1 x.2 (by rw [hx])]
        decide

lemma default_total {k : Kind} (h : k ≠ .other) : ∃ p, (do let dn ← defaultPw k; pwBook dn) = .ok p := by
  have : ∃ p, defaultPartial k = some p := by
    cases k <;> simp [defaultPartial] at h ⊢
  obtain ⟨p, hp⟩ := this
  exact ⟨p, (default_ok _ _).mpr hp⟩

/-- The options of the rotor averaging that are understood by the reader itself, for which also names for the model book can be given. -/
def RotorKnown (r : RotorAvg) : Prop :=
  (r.background = some "center" ∨ r.background = some "centre" ∨ r.background = some "grid") ∧
  (r.wake = none ∨ r.wake = some "none" ∨ r.wake = some "None" ∨ r.wake = some "auto" ∨ r.wake = some "centre" ∨ r.wake = some "center" ∨
    (r.wake = some "grid" ∧ (r.background = some "grid" ∨ r.grid = "grid")))

/-- Every valid analysis with known options of the rotor averaging gives an algorithm. -/
theorem C69_accepted (a : Analysis) (hv : Valid a) (hr : ∀ r, a.rotor = some r → RotorKnown r) : ∃ g, readAttributes a = .ok g := by
  obtain ⟨s, hs⟩ := (C69_accepted_iff a).mpr hv
  obtain ⟨ws, w1, w2, w3, w4, w5, w6, w7, w8, w9⟩ := readAnalysis_ok hs
  have h1 : ∃ r, rotorBook (s.rotor.getD (some "centre")) = .ok r := by
    rw [w6]
    cases har : a.rotor with
    | none => exact ⟨.centre, by decide⟩
    | some r =>
      obtain ⟨hb, -⟩ := hr r har
      rw [Option.map_some, Option.getD_some]
      rcases hb with hb | hb | hb
      · exact ⟨.centre, by simp [rotorName, hb, rotorBook]⟩
      · exact ⟨.centre, by simp [rotorName, hb, rotorBook]⟩
      · refine ⟨.grid r.nx, ?_⟩
        have : rotorName r = some (gridName (r.nx * r.nx)) := by
          simp [rotorName, hb, w8 r har]
        rw [this, rotorBook_grid]
  obtain ⟨r, h1⟩ := h1
  have h2 : ∃ f, frameOf s = .ok f := by
    cases had : a.deflection with
    | none =>
      rw [had] at w9
      exact ⟨⟨"RotorWD", none⟩, by simp only [frameOf, w9]⟩
    | some nm =>
      rw [had] at w9
      obtain ⟨n, cls, ind, v1, v2, v3, v4, v5⟩ := w9
      exact ⟨newFrame cls ind, by simp only [frameOf, v4, v5, item]⟩
  obtain ⟨f, h2⟩ := h2
  have h3 : s.wakes.mapM (wakeOf s.book) = .ok ws := by
    rw [w3, w4]
    exact mapM_wakeOf ws ws w2 (fun x hx => hx)
  have h4 : ∃ l, setPw (pwParam s.pwakes) ws = .ok l := by
    unfold setPw
    have key : pwParam s.pwakes = .none ∨ ∃ n q, pwParam s.pwakes = .str n ∧ pwBook n = .ok q := by
      rw [w7]
      cases har : a.rotor with
      | none => exact Or.inl rfl
      | some r =>
        obtain ⟨-, hw⟩ := hr r har
        rw [Option.map_some]
        rcases hw with hw | hw | hw | hw | hw | hw | ⟨hw, hb⟩
        · left; simp [pwName, hw, pwParam]
        · left; simp [pwName, hw, pwParam]
        · left; simp [pwName, hw, pwParam]
        · left; simp [pwName, hw, pwParam]
        · right; exact ⟨"centre", .centre, by simp [pwName, hw, pwParam], by decide⟩
        · right; exact ⟨"centre", .centre, by simp [pwName, hw, pwParam], by decide⟩
        · right
          by_cases hb' : r.background = some "grid"
          · exact ⟨"rotor_points", .rotorPoints, by simp [pwName, hw, hb', pwParam], by decide⟩
          · have hg : r.grid = "grid" := hb.resolve_left hb'
            exact ⟨gridName (r.nx * r.nx), .grid r.nx, by simp [pwName, hw, hb', hg, pwParam, w8 r har], pwBook_grid _⟩
    apply pwLoop_total
    intro j nw hj
    have hk := w1.kinds nw (List.mem_of_getElem? hj)
    rcases key with hk' | ⟨n, q, hk1, hk2⟩
    · rw [hk']
      simp only [PVals.normal, pwOne, pwFromDict, List.lookup_nil]
      exact default_total hk
    · rw [hk1]
      simp only [PVals.normal, pwOne, pwFromStr, hk2, ok_bind _ rfl]
      split_ifs
      · exact ⟨q, rfl⟩
      · exact default_total hk
  obtain ⟨l, h4⟩ := h4
  refine ⟨⟨s.algoType = "Iterative", r, f, ws, l⟩, ?_⟩
  unfold readAttributes
  rw [hs, ok_bind _ rfl]
  unfold mkAlg
  rw [h1, ok_bind _ rfl, h2, ok_bind _ rfl, h3, ok_bind _ rfl, h4]
  rfl

example : ∀ r, exAna.rotor = some r → RotorKnown r := by
  intro r hr
  cases hr
  exact ⟨Or.inr (Or.inr rfl), Or.inr (Or.inr (Or.inr (Or.inl rfl)))⟩

/-- The wake frame: the one that follows the wind direction at the rotor, unless yawed wakes are chosen. -/
theorem C69_frame (a : Analysis) (g : Alg) (h : readAttributes a = .ok g) :
    ((a.deflection = none ∨ a.deflection = some (some "None")) → g.frame = ⟨"RotorWD", none⟩) ∧
    (a.deflection = some (some "Batankhah2016") → ∃ ind, inductionModel a.induction = some ind ∧ g.frame = ⟨"YawedWakes", some ind⟩) := by
  have h7 := (readAttributes_ok h).2.2.2.2.2.2
  refine ⟨fun hd => ?_, fun hd => ?_⟩
  · rcases hd with hd | hd
    · rw [hd] at h7
      exact h7
    · rw [hd] at h7
      obtain ⟨n, cls, ind, e1, e2, e3, e4⟩ := h7
      cases e1
      have : cls = "RotorWD" := by
        have : deflMap.lookup "None" = some "RotorWD" := by decide
        rw [this] at e2
        exact (Option.some.inj e2).symm
      rw [e4, this]
      simp [newFrame]
  · rw [hd] at h7
    obtain ⟨n, cls, ind, e1, e2, e3, e4⟩ := h7
    cases e1
    have : cls = "YawedWakes" := by
      have : deflMap.lookup "Batankhah2016" = some "YawedWakes" := by decide
      rw [this] at e2
      exact (Option.some.inj e2).symm
    refine ⟨ind, e3, ?_⟩
    rw [e4, this]
    simp [newFrame]

example : ∃ a g, readAttributes a = .ok g ∧ a.deflection = none := ⟨exAna, exAlg, C69_example, rfl⟩

/-! ### Outputs -/

/-- The selection of states: all, or the given subset. -/
theorem C69_cases (all : Bool) (sub : List ℕ) : readCases (some { all := some all, subset := some sub }) = .ok (if all then none else some sub) := by
  cases all <;> rfl

/-- False of the code: without the entry `cases_run` all states are written. The outputs are refused. -/
theorem C69_cases_default_refused (t : Option TurbOut) (f : Option FlowOut) (hubs : List ℚ) : readOutputs none t f hubs = .error .key := rfl

/-- The name of the foxes variable of a turbine output. -/
def turbineVariable : String → Option String
  | "power" => some "P"
  | "rotor_effective_velocity" => some "REWS"
  | _ => none

lemma turbVars_lookup (v : String) : turbVars.lookup v = turbineVariable v := by
  unfold turbineVariable turbVars
  split
  · rfl
  · rfl
  · rename_i h1 h2
    rw [Foxes.Props.WindIO.lookup_ne (fun e => h1 e), Foxes.Props.WindIO.lookup_ne (fun e => h2 e)]
    rfl

/-- The names of the table. -/
lemma table_name {v w : String} (h : turbineVariable v = some w) :
    ((turbVars.map (fun p => (p.2, p.1)) ++ [("state", "time"), ("turbine", "turbine")]).lookup w).getD w = v := by
  unfold turbineVariable at h
  split at h
  · cases h
    decide
  · cases h
    decide
  · cases h

lemma fold_lookup {α : Type} (cols : List (String × α)) (d : List (String × α)) (v : String) (f : α) (hall : ∀ c ∈ cols, c.1 = v → c.2 = f)
    (h : d.lookup v = some f ∨ ∃ c ∈ cols, c.1 = v) : (cols.foldl (fun d c => put c.1 c.2 d) d).lookup v = some f := by
  induction cols generalizing d with
  | nil =>
    rcases h with h | ⟨c, hc, -⟩
    · exact h
    · simp at hc
  | cons c cols ih =>
    rw [List.foldl_cons]
    apply ih _ (fun c' hc' => hall c' (by simp [hc']))
    rw [lookup_put]
    by_cases hv : v = c.1
    · left
      rw [if_pos hv, hall c (by simp) hv.symm]
    · rw [if_neg hv]
      rcases h with h | ⟨c', hc', hv'⟩
      · exact Or.inl h
      · rcases List.mem_cons.mp hc' with rfl | hc'
        · exact absurd hv'.symm hv
        · exact Or.inr ⟨c', hc', hv'⟩

lemma fold_lookup_none {α : Type} (cols : List (String × α)) (d : List (String × α)) (v : String) (hall : ∀ c ∈ cols, c.1 ≠ v) :
    (cols.foldl (fun d c => put c.1 c.2 d) d).lookup v = d.lookup v := by
  induction cols generalizing d with
  | nil => rfl
  | cons c cols ih =>
    rw [List.foldl_cons, ih _ (fun c' hc' => hall c' (by simp [hc'])), lookup_put, if_neg (fun e => hall c (by simp) e.symm)]

lemma mapM_ok {α β : Type} {f : α → Except Err β} {l : List α} {r : List β} (h : l.mapM f = .ok r) : List.Forall₂ (fun x y => f x = .ok y) l r := by
  induction l generalizing r with
  | nil =>
    rw [List.mapM_nil] at h
    rw [pure_ok h]
    exact List.Forall₂.nil
  | cons x l ih =>
    rw [List.mapM_cons] at h
    obtain ⟨y, h1, h⟩ := bind_ok h
    obtain ⟨ys, h2, h⟩ := bind_ok h
    rw [pure_ok h]
    exact List.Forall₂.cons h1 (ih h2)

lemma forall₂_mem {α β : Type} {R : α → β → Prop} {l : List α} {r : List β} (h : List.Forall₂ R l r) : (∀ x ∈ l, ∃ y ∈ r, R x y) ∧ ∀ y ∈ r, ∃ x ∈ l, R x y := by
  induction h with
  | nil => simp
  | cons h1 _ ih =>
    refine ⟨fun x hx => ?_, fun y hy => ?_⟩
    · rcases List.mem_cons.mp hx with rfl | hx
      · exact ⟨_, by simp, h1⟩
      · obtain ⟨y, hy, hR⟩ := ih.1 x hx
        exact ⟨y, by simp [hy], hR⟩
    · rcases List.mem_cons.mp hy with rfl | hy
      · exact ⟨_, by simp, h1⟩
      · obtain ⟨x, hx, hR⟩ := ih.2 y hy
        exact ⟨x, by simp [hx], hR⟩

lemma selStates_get {st : List ℚ} {sel : List ℕ} {r : List ℚ} (h : selStates st sel = .ok r) : r.length = sel.length ∧ ∀ i j : ℕ, sel[i]? = some j → r[i]? = st[j]? ∧ j < st.length := by
  unfold selStates at h
  have h2 := mapM_ok h
  refine ⟨h2.length_eq.symm, fun i j hj => ?_⟩
  clear h
  induction h2 generalizing i with
  | nil => simp at hj
  | @cons x y l l' h1 _ ih =>
    cases i with
    | zero =>
      simp only [List.getElem?_cons_zero, Option.some.injEq] at hj
      subst hj
      cases hs : st[x]? with
      | none => simp [hs] at h1
      | some z =>
        rw [hs] at h1
        simp only [Except.ok.injEq] at h1
        subst h1
        exact ⟨by simp, by
          obtain ⟨hlt, -⟩ := List.getElem?_eq_some_iff.mp hs
          exact hlt⟩
    | succ i => exact ih i (by simpa using hj)

lemma lookup_map_val' {α β : Type} (l : List (String × α)) (g : α → β) (k : String) : (l.map (fun p => (p.1, g p.2))).lookup k = (l.lookup k).map g := by
  induction l with
  | nil => rfl
  | cons x l ih =>
    by_cases hk : k = x.1
    · subst hk
      obtain ⟨a, b⟩ := x
      simp [List.lookup_cons]
    · rw [List.map_cons, Foxes.Props.WindIO.lookup_ne hk, show x = (x.1, x.2) from rfl, Foxes.Props.WindIO.lookup_ne hk, ih]

/-- The table of the turbine results: for every requested variable there is a column with its windIO name, and no other column; its entry in row `i` for turbine `t`, and the
label of the row, are those of the state that comes `i`-th in the subset, or of state `i` if all states are chosen. -/
theorem C69_turbine_table (t : TurbOut) (ht : t.report ≠ some false) (vs : List String) (hvs : t.vars = some vs) (sel : Option (List ℕ)) (hsel : sel ≠ some [])
    (q : Option TableReq) (hq : readTurbineOutputs (some t) sel = .ok q) :
    ∃ q', q = some q' ∧ ∀ (r : FarmRes) (tb : Table), getTable r q' = .ok tb →
      tb.stateName = "time" ∧
      (match sel with
        | none => tb.states = r.states
        | some l => tb.states.length = l.length ∧ ∀ i j : ℕ, l[i]? = some j → j < r.states.length ∧ tb.states[i]? = r.states[j]?) ∧
      (∀ v, v ∉ vs → tb.data.lookup v = none) ∧
      ∀ v ∈ vs, ∃ w f g, turbineVariable v = some w ∧ r.data.lookup w = some f ∧ tb.data.lookup v = some g ∧
        match sel with
        | none => ∀ i k, g i k = f i k
        | some l => ∀ i j k : ℕ, l[i]? = some j → g i k = f j k := by
  unfold readTurbineOutputs at hq
  simp only at hq
  have hrep : t.report.getD true = true := by
    rcases h : t.report with _ | _ | _
    · rfl
    · exact absurd h ht
    · rfl
  rw [if_pos hrep, hvs, item_some, ok_bind _ rfl] at hq
  obtain ⟨fv, h1, hq⟩ := bind_ok hq
  have := pure_ok hq
  subst this
  refine ⟨_, rfl, fun r tb htb => ?_⟩
  have hvs2 := forall₂_mem (mapM_ok h1)
  unfold getTable at htb
  simp only at htb
  obtain ⟨cols, h2, htb⟩ := bind_ok htb
  have hcols := forall₂_mem (mapM_ok h2)
  -- columns
  have hcol : ∀ c ∈ cols, ∃ v w, v ∈ vs ∧ turbineVariable v = some w ∧ c.1 = v ∧ r.data.lookup w = some c.2 := by
    intro c hc
    obtain ⟨w, hw, hw2⟩ := hcols.2 c hc
    obtain ⟨v, hv, hv2⟩ := hvs2.2 w hw
    have hv3 := item_ok hv2
    rw [turbVars_lookup] at hv3
    unfold column at hw2
    obtain ⟨f, hf, hw2⟩ := bind_ok hw2
    have hc2 := pure_ok hw2
    refine ⟨v, w, hv, hv3, ?_, ?_⟩
    · rw [hc2]
      exact table_name hv3
    · rw [hc2]
      exact item_ok hf
  have hdata : ∀ v ∈ vs, ∃ w f, turbineVariable v = some w ∧ r.data.lookup w = some f ∧ (cols.foldl (fun d c => put c.1 c.2 d) []).lookup v = some f := by
    intro v hv
    obtain ⟨w, hw, hw2⟩ := hvs2.1 v hv
    have hv3 := item_ok hw2
    rw [turbVars_lookup] at hv3
    obtain ⟨c, hc, hc2⟩ := hcols.1 w hw
    unfold column at hc2
    obtain ⟨f, hf, hc2⟩ := bind_ok hc2
    have hc3 := pure_ok hc2
    refine ⟨w, f, hv3, item_ok hf, fold_lookup _ _ _ _ ?_ (Or.inr ⟨c, hc, ?_⟩)⟩
    · intro c' hc' hv'
      obtain ⟨v', w', g1, g2, g3, g4⟩ := hcol c' hc'
      rw [hv'] at g3
      subst g3
      rw [hv3] at g2
      cases g2
      rw [item_ok hf] at g4
      exact (Option.some.inj g4).symm
    · rw [hc3]
      exact table_name hv3
  have hother : ∀ v, v ∉ vs → (cols.foldl (fun d c => put c.1 c.2 d) []).lookup v = none := by
    intro v hv
    rw [fold_lookup_none]
    · rfl
    · intro c hc e
      obtain ⟨v', w', g1, g2, g3, g4⟩ := hcol c hc
      exact hv (by rw [← e, g3]; exact g1)
  cases sel with
  | none =>
    simp only [tableSel] at htb
    have := pure_ok htb
    subst this
    refine ⟨rfl, rfl, hother, fun v hv => ?_⟩
    obtain ⟨w, f, g1, g2, g3⟩ := hdata v hv
    exact ⟨w, f, f, g1, g2, g3, fun i k => rfl⟩
  | some l =>
    have hl : tableSel (some l) = some l := by
      cases l with
      | nil => exact absurd rfl hsel
      | cons a l => rfl
    simp only [hl] at htb
    obtain ⟨st, h3, htb⟩ := bind_ok htb
    have := pure_ok htb
    subst this
    obtain ⟨g1, g2⟩ := selStates_get h3
    refine ⟨rfl, ⟨g1, fun i j hj => ⟨(g2 i j hj).2, (g2 i j hj).1⟩⟩, fun v hv => ?_, fun v hv => ?_⟩
    · show List.lookup v (List.map (fun p : String × (ℕ → ℕ → ℚ) => (p.1, fun i t => p.2 (l.getD i 0) t)) _) = none
      rw [lookup_map_val' _ (fun p : ℕ → ℕ → ℚ => fun i t => p (l.getD i 0) t), hother v hv]
      rfl
    · obtain ⟨w, f, e1, e2, e3⟩ := hdata v hv
      refine ⟨w, f, fun i t => f (l.getD i 0) t, e1, e2, ?_, fun i j k hj => ?_⟩
      · show List.lookup v (List.map (fun p : String × (ℕ → ℕ → ℚ) => (p.1, fun i t => p.2 (l.getD i 0) t)) _) = _
        rw [lookup_map_val' _ (fun p : ℕ → ℕ → ℚ => fun i t => p (l.getD i 0) t), e3]
        rfl
      · show f (l.getD i 0) k = f j k
        rw [List.getD_eq_getElem?_getD, hj]
        rfl

example : ∃ q, readTurbineOutputs (some { vars := some ["power"] }) (some [3, 1]) = .ok (some q) ∧ q.vars = ["P"] ∧
    ∃ tb, getTable ⟨[10, 11, 12, 13], 2, [("P", fun i t => i + t)]⟩ q = .ok tb ∧ tb.states = [13, 11] :=
  ⟨_, rfl, rfl, _, rfl, rfl⟩

/-- What a successful read of the flow field gives. -/
lemma readFlowField_ok {f : FlowOut} {hubs : List ℚ} {sel : Option (List ℕ)} {p : PlaneReq} (h : readFlowField (some f) hubs sel = .ok (some p)) :
    ∃ vs z x0 x1 y0 y1 fv, f.vars = some vs ∧ zList hubs f.z = .ok z ∧ f.xyGrid = true ∧ f.xb = [x0, x1] ∧ f.yb = [y0, y1] ∧ f.dx ≠ 0 ∧ f.dy ≠ 0 ∧
      List.Forall₂ (fun v w => flowVars.lookup v = some w) vs fv ∧
      p = ⟨z, sel, (x0, x1), (y0, y1), gridCount x0 x1 f.dx, gridCount y0 y1 f.dy, fv, f.file.getD "flow_field.nc"⟩ := by
  have two : ∀ {l : List ℚ} {b : ℚ × ℚ}, twoBounds l = .ok b → l = [b.1, b.2] := by
    intro l b hb
    rcases l with _ | ⟨x, _ | ⟨y, _ | ⟨z, l⟩⟩⟩
    · simp [twoBounds] at hb
    · simp [twoBounds] at hb
    · simp only [twoBounds, Except.ok.injEq] at hb
      rw [← hb]
    · simp [twoBounds] at hb
  unfold readFlowField at h
  simp only at h
  by_cases hr : f.report.getD true = true
  · rw [if_pos hr] at h
    obtain ⟨vs, h1, h⟩ := bind_ok h
    obtain ⟨z, h2, h⟩ := bind_ok h
    by_cases hg : f.xyGrid = true
    · rw [if_pos hg] at h
      obtain ⟨xb, h3, h⟩ := bind_ok h
      obtain ⟨yb, h4, h⟩ := bind_ok h
      by_cases hd : f.dx = 0 ∨ f.dy = 0
      · rw [if_pos hd] at h
        cases h
      · rw [if_neg hd] at h
        obtain ⟨fv, h5, h⟩ := bind_ok h
        have := pure_ok h
        simp only [Option.some.injEq] at this
        rw [not_or] at hd
        exact ⟨vs, z, xb.1, xb.2, yb.1, yb.2, fv, item_ok h1, h2, hg, two h3, two h4, hd.1, hd.2, (mapM_ok h5).imp (fun _ _ h => item_ok h), this⟩
    · rw [if_neg hg] at h
      cases h
  · rw [if_neg hr] at h
    cases h

/-- False of the code: an empty subset selects the same states for table and flow field. The table has all states, the flow field none. -/
theorem C69_empty_subset (t : TurbOut) (f : FlowOut) (hubs : List ℚ) (q : TableReq) (p : PlaneReq)
    (h : readOutputs (some { all := some false, subset := some [] }) (some t) (some f) hubs = .ok (some q, some p)) : q.isel = none ∧ p.isel = some [] := by
  unfold readOutputs at h
  obtain ⟨sel, h1, h⟩ := bind_ok h
  obtain ⟨a, h2, h⟩ := bind_ok h
  obtain ⟨b, h3, h⟩ := bind_ok h
  have := pure_ok h
  cases this
  rw [C69_cases] at h1
  simp only [Bool.false_eq_true, if_false, Except.ok.injEq] at h1
  subst h1
  constructor
  · unfold readTurbineOutputs at h2
    simp only at h2
    by_cases hr : t.report.getD true = true
    · rw [if_pos hr] at h2
      obtain ⟨vs, h4, h2⟩ := bind_ok h2
      obtain ⟨fv, h5, h2⟩ := bind_ok h2
      have := pure_ok h2
      cases this
      rfl
    · rw [if_neg hr] at h2
      cases h2
  · obtain ⟨vs, z, x0, x1, y0, y1, fv, -, -, -, -, -, -, -, -, rfl⟩ := readFlowField_ok h3
    rfl

/-- A request for outputs, used as example. -/
def exFlow : FlowOut where
  vars := some ["wind_speed"]
  z := .hubHeights
  xyGrid := true
  xb := [0, 1000]
  yb := [0, 100]
  dx := 300
  dy := 50

example : ∃ q p, readOutputs (some { all := some false, subset := some [] }) (some { vars := some [] }) (some exFlow) [100, 90, 100] = .ok (some q, some p) := ⟨_, _, rfl⟩

/-- The points of a plane along one direction: for every interval and step there are at least two points, the distance of neighbours is at most the step, and with one point less
(if there are more than two) it would be larger. -/
theorem C69_grid_points (lo hi d : ℚ) (hlt : lo < hi) (hd : 0 < d) :
    2 ≤ gridCount lo hi d ∧ (hi - lo) / ((gridCount lo hi d : ℚ) - 1) ≤ d ∧ (2 < gridCount lo hi d → d < (hi - lo) / ((gridCount lo hi d : ℚ) - 2)) := by
  have hq : 0 < (hi - lo) / d := div_pos (by linarith) hd
  set q := (hi - lo) / d with hqd
  have hL : hi - lo = q * d := by rw [hqd]; field_simp
  obtain ⟨m, hm⟩ : ∃ m : ℕ, ⌊q⌋ = (m : ℤ) := ⟨⌊q⌋.toNat, (Int.toNat_of_nonneg (Int.floor_nonneg.mpr hq.le)).symm⟩
  have f1 : (m : ℚ) ≤ q := by
    have := Int.floor_le q
    rw [hm] at this
    exact_mod_cast this
  have f2 : q < (m : ℚ) + 1 := by
    have := Int.lt_floor_add_one q
    rw [hm] at this
    exact_mod_cast this
  have hg : gridCount lo hi d = if (hi - lo) / ((((max m 1 + 1 : ℕ)) : ℚ) - 1) > d then max m 1 + 1 + 1 else max m 1 + 1 := by
    unfold gridCount
    simp only [← hqd, hm, Int.toNat_natCast]
  rw [hg, hL]
  have hmax : (1 : ℚ) ≤ ((max m 1 : ℕ) : ℚ) := by exact_mod_cast le_max_right m 1
  set M := max m 1 with hM
  have hMm : (m : ℚ) ≤ (M : ℚ) := by exact_mod_cast le_max_left m 1
  have hcast : (((M + 1 : ℕ) : ℚ)) - 1 = (M : ℚ) := by push_cast; ring
  rw [hcast]
  have hM0 : (0 : ℚ) < M := by linarith
  split_ifs with hc
  · refine ⟨by omega, ?_, fun _ => ?_⟩
    · have : (((M + 1 + 1 : ℕ) : ℚ)) - 1 = (M : ℚ) + 1 := by push_cast; ring
      rw [this, div_le_iff₀ (by linarith)]
      nlinarith
    · have : (((M + 1 + 1 : ℕ) : ℚ)) - 2 = (M : ℚ) := by push_cast; ring
      rw [this]
      exact hc
  · refine ⟨by omega, by rw [hcast]; exact not_lt.mp hc, fun h2 => ?_⟩
    have hM2 : 2 ≤ M := by omega
    have hmM : M = m := by omega
    have : (((M + 1 : ℕ) : ℚ)) - 2 = (M : ℚ) - 1 := by push_cast; ring
    have hM2' : (2 : ℚ) ≤ M := by exact_mod_cast hM2
    rw [this, lt_div_iff₀ (by linarith)]
    rw [← hmM] at f1
    nlinarith

example : gridCount 0 1000 300 = 5 ∧ gridCount 0 900 300 = 4 ∧ gridCount 0 100 300 = 2 := by decide +kernel

/-- The heights of the planes: with hub heights each height of a turbine once, in ascending order; with a grid the number of equidistant heights from bound to bound; otherwise
the heights given. -/
theorem C69_heights (hubs : List ℚ) (z : List ℚ) :
    (zList hubs .hubHeights = .ok z → z.Pairwise (· < ·) ∧ ∀ h, h ∈ z ↔ h ∈ hubs) ∧
    (∀ a b n, zList hubs (.grid (some [a, b]) (some n)) = .ok z → z.length = n ∧ (2 ≤ n → ∀ i, i < n → z[i]? = some (a + (b - a) * i / ((n : ℚ) - 1)))) ∧
    (∀ l, zList hubs (.planeList (some l)) = .ok z → z = l) ∧ (∀ x, zList hubs (.number x) = .ok z → z = [x]) := by
  refine ⟨fun h => ?_, fun a b n h => ?_, fun l h => ?_, fun x h => ?_⟩
  · simp only [zList, Except.ok.injEq] at h
    subst h
    have hmem : ∀ (x : ℚ) (l : List ℚ) (y : ℚ), y ∈ insertU x l ↔ y = x ∨ y ∈ l := by
      intro x l y
      induction l with
      | nil => simp [insertU]
      | cons c l ih =>
        unfold insertU
        split_ifs with h1 h2
        · simp
        · subst h2; simp
        · simp [ih]; tauto
    have hsort : ∀ (x : ℚ) (l : List ℚ), l.Pairwise (· < ·) → (insertU x l).Pairwise (· < ·) := by
      intro x l hl
      induction l with
      | nil => simp [insertU]
      | cons c l ih =>
        rw [List.pairwise_cons] at hl
        unfold insertU
        split_ifs with h1 h2
        · rw [List.pairwise_cons, List.pairwise_cons]
          refine ⟨fun y hy => ?_, hl⟩
          rcases List.mem_cons.mp hy with rfl | hy
          · exact h1
          · exact h1.trans (hl.1 y hy)
        · rw [List.pairwise_cons]; exact hl
        · rw [List.pairwise_cons]
          refine ⟨fun y hy => ?_, ih hl.2⟩
          rcases (hmem x l y).mp hy with rfl | hy
          · exact lt_of_le_of_ne (not_lt.mp h1) (Ne.symm h2)
          · exact hl.1 y hy
    have key : ∀ (l acc : List ℚ), acc.Pairwise (· < ·) →
        (l.foldl (fun acc x => insertU x acc) acc).Pairwise (· < ·) ∧ ∀ h, h ∈ l.foldl (fun acc x => insertU x acc) acc ↔ h ∈ acc ∨ h ∈ l := by
      intro l
      induction l with
      | nil => intro acc h; simpa using h
      | cons x l ih =>
        intro acc h
        obtain ⟨i1, i2⟩ := ih (insertU x acc) (hsort x acc h)
        refine ⟨i1, fun y => ?_⟩
        rw [List.foldl_cons, i2, hmem]
        simp; tauto
    have := key hubs [] List.Pairwise.nil
    exact ⟨this.1, fun h => by rw [show unique hubs = hubs.foldl (fun acc x => insertU x acc) [] from rfl, this.2]; simp⟩
  · simp only [zList, item, twoBounds, ok_bind _ rfl] at h
    have := pure_ok h
    subst this
    unfold linspace
    split_ifs with h1
    · subst h1; exact ⟨rfl, by omega⟩
    · refine ⟨by simp, fun _ i hi => by simp [hi]⟩
  · simpa [zList, item] using h.symm
  · simpa [zList] using h.symm

example : zList [100, 90, 100, 120] .hubHeights = .ok [90, 100, 120] := by decide +kernel
example : zList [] (.grid (some [0, 100]) (some 3)) = .ok [0, 50, 100] := by decide +kernel

/-- The name of the foxes variable of a flow field output. -/
def flowVariable : String → Option String
  | "wind_speed" => some "WS"
  | "wind_direction" => some "WD"
  | _ => none

/-- The request for the flow field: variables, bounds, heights, selected states and file as given; the points are at most `dx` and `dy` apart. -/
theorem C69_flow_field (f : FlowOut) (hubs : List ℚ) (sel : Option (List ℕ)) (p : PlaneReq) (h : readFlowField (some f) hubs sel = .ok (some p)) :
    p.isel = sel ∧ zList hubs f.z = .ok p.z ∧ f.xb = [p.x.1, p.x.2] ∧ f.yb = [p.y.1, p.y.2] ∧ p.nx = gridCount p.x.1 p.x.2 f.dx ∧ p.ny = gridCount p.y.1 p.y.2 f.dy ∧
      p.file = f.file.getD "flow_field.nc" ∧ ∃ vs, f.vars = some vs ∧ vs.map flowVariable = p.vars.map some := by
  obtain ⟨vs, z, x0, x1, y0, y1, fv, e1, e2, -, e4, e5, -, -, e8, rfl⟩ := readFlowField_ok h
  refine ⟨rfl, e2, e4, e5, rfl, rfl, rfl, vs, e1, ?_⟩
  clear h e1
  induction e8 with
  | nil => rfl
  | @cons v w _ _ h1 _ ih =>
    rw [List.map_cons, List.map_cons, ih]
    congr 1
    have := lookup_mem h1
    simp only [flowVars, List.mem_cons, Prod.mk.injEq, List.not_mem_nil, or_false] at this
    rcases this with ⟨rfl, rfl⟩ | ⟨rfl, rfl⟩
    · rfl
    · rfl

example : ∃ p, readFlowField (some exFlow) [100, 90, 100] none = .ok (some p) ∧ p.nx = 5 ∧ p.ny = 3 ∧ p.z = [90, 100] := ⟨_, rfl, by decide +kernel⟩

/-- Reports that are switched off, or missing, request nothing; missing switches are on. -/
theorem C69_reports (t : Option TurbOut) (f : Option FlowOut) (hubs : List ℚ) (sel : Option (List ℕ)) :
    (readTurbineOutputs t sel = .ok none ↔ t = none ∨ ∃ t', t = some t' ∧ t'.report = some false) ∧
    (readFlowField f hubs sel = .ok none ↔ f = none ∨ ∃ f', f = some f' ∧ f'.report = some false) := by
  have hrep : ∀ o : Option Bool, o.getD true = true ↔ o ≠ some false := by
    intro o
    rcases o with _ | _ | _ <;> simp
  constructor
  · cases t with
    | none => simp [readTurbineOutputs]
    | some t =>
      simp only [readTurbineOutputs, reduceCtorEq, Option.some.injEq, exists_eq_left', false_or]
      by_cases hr : t.report = some false
      · simp [hr]
      · rw [if_pos ((hrep _).mpr hr)]
        refine ⟨fun h => ?_, fun h => absurd h hr⟩
        obtain ⟨vs, -, h⟩ := bind_ok h
        obtain ⟨fv, -, h⟩ := bind_ok h
        have := pure_ok h
        cases this
  · cases f with
    | none => simp [readFlowField]
    | some f =>
      simp only [readFlowField, reduceCtorEq, Option.some.injEq, exists_eq_left', false_or]
      by_cases hr : f.report = some false
      · simp [hr]
      · rw [if_pos ((hrep _).mpr hr)]
        refine ⟨fun h => ?_, fun h => absurd h hr⟩
        obtain ⟨vs, -, h⟩ := bind_ok h
        obtain ⟨z, -, h⟩ := bind_ok h
        by_cases hg : f.xyGrid = true
        · rw [if_pos hg] at h
          obtain ⟨xb, -, h⟩ := bind_ok h
          obtain ⟨yb, -, h⟩ := bind_ok h
          by_cases hd : f.dx = 0 ∨ f.dy = 0
          · rw [if_pos hd] at h
            cases h
          · rw [if_neg hd] at h
            obtain ⟨fv, -, h⟩ := bind_ok h
            have := pure_ok h
            cases this
        · rw [if_neg hg] at h
          cases h

/-- Which partial wakes fit: top hat partial wakes to the top hat models (Jensen and the turbulence models), axisymmetric ones also to Gaussian models but not to Bastankhah2016 and blockage models,
points at the rotor, the centre and grids to all. -/
theorem C69_fits (w : WObj) (n : String) (h : deficitClass n = some w.cls ∨ turbulenceClass n = some w.cls ∨ blockageClass n = some w.cls) :
    (compatible .topHat (kind w) = true ↔ n ∈ ["Jensen", "CrespoHernandez", "IEC-TI-2019"]) ∧
    (∀ m, compatible (.axiwake m) (kind w) = true ↔ n ∈ ["Jensen", "CrespoHernandez", "IEC-TI-2019", "Bastankhah2014", "TurbOPark"]) ∧
    (∀ m, compatible .rotorPoints (kind w) = true ∧ compatible .centre (kind w) = true ∧ compatible (.grid m) (kind w) = true) := by
  have key : ∀ k : Kind, kind w = k → (n ∈ ["Jensen", "CrespoHernandez", "IEC-TI-2019"] ↔ k = .topHat) →
      (n ∈ ["Jensen", "CrespoHernandez", "IEC-TI-2019", "Bastankhah2014", "TurbOPark"] ↔ k = .topHat ∨ k = .axi) →
      (compatible .topHat (kind w) = true ↔ n ∈ ["Jensen", "CrespoHernandez", "IEC-TI-2019"]) ∧
    (∀ m, compatible (.axiwake m) (kind w) = true ↔ n ∈ ["Jensen", "CrespoHernandez", "IEC-TI-2019", "Bastankhah2014", "TurbOPark"]) ∧
    (∀ m, compatible .rotorPoints (kind w) = true ∧ compatible .centre (kind w) = true ∧ compatible (.grid m) (kind w) = true) := by
    intro k hk h1 h2
    rw [hk, h1, h2]
    exact ⟨by simp [compatible], fun m => by simp [compatible], fun m => ⟨rfl, rfl, rfl⟩⟩
  have hk : ∀ c : String, w.cls = c → kind w = kind ⟨c, "", none, none, none⟩ := by
    intro c hc
    unfold kind
    rw [hc]
  rcases h with h | h | h
  · unfold deficitClass at h
    split at h
    · exact key _ (hk _ (Option.some.inj h).symm) (by decide) (by decide)
    · exact key _ (hk _ (Option.some.inj h).symm) (by decide) (by decide)
    · exact key _ (hk _ (Option.some.inj h).symm) (by decide) (by decide)
    · exact key _ (hk _ (Option.some.inj h).symm) (by decide) (by decide)
    · cases h
  · unfold turbulenceClass at h
    split at h
    · exact key _ (hk _ (Option.some.inj h).symm) (by decide) (by decide)
    · exact key _ (hk _ (Option.some.inj h).symm) (by decide) (by decide)
    · cases h
  · unfold blockageClass at h
    split at h
    · exact key _ (hk _ (Option.some.inj h).symm) (by decide) (by decide)
    · exact key _ (hk _ (Option.some.inj h).symm) (by decide) (by decide)
    · exact key _ (hk _ (Option.some.inj h).symm) (by decide) (by decide)
    · exact key _ (hk _ (Option.some.inj h).symm) (by decide) (by decide)
    · cases h

example : deficitClass "Jensen" = some (WObj.mk "JensenWake" "Betz" none none none).cls := rfl

/-- Table and flow field of a request use the same selection of states (apart from an empty subset), and the files that are named. -/
theorem C69_outputs (c : Cases) (t : TurbOut) (f : FlowOut) (hubs : List ℚ) (q : TableReq) (p : PlaneReq)
    (h : readOutputs (some c) (some t) (some f) hubs = .ok (some q, some p)) :
    (c.all = some true → q.isel = none ∧ p.isel = none) ∧
    (∀ l, c.all = some false → c.subset = some l → p.isel = some l ∧ (l ≠ [] → q.isel = some l)) ∧
    q.file = t.file.getD "turbine_outputs.nc" ∧ p.file = f.file.getD "flow_field.nc" := by
  unfold readOutputs at h
  obtain ⟨sel, h1, h⟩ := bind_ok h
  obtain ⟨a, h2, h⟩ := bind_ok h
  obtain ⟨b, h3, h⟩ := bind_ok h
  have := pure_ok h
  cases this
  obtain ⟨vs, z, x0, x1, y0, y1, fv, -, -, -, -, -, -, -, -, rfl⟩ := readFlowField_ok h3
  have hq : q.isel = tableSel sel ∧ q.file = t.file.getD "turbine_outputs.nc" := by
    unfold readTurbineOutputs at h2
    simp only at h2
    by_cases hr : t.report.getD true = true
    · rw [if_pos hr] at h2
      obtain ⟨vs, h4, h2⟩ := bind_ok h2
      obtain ⟨fv, h5, h2⟩ := bind_ok h2
      have := pure_ok h2
      cases this
      exact ⟨rfl, rfl⟩
    · rw [if_neg hr] at h2
      cases h2
  refine ⟨fun ha => ?_, fun l ha hl => ?_, hq.2, rfl⟩
  · simp only [readCases, Option.getD_some, ha, item, ok_bind _ rfl, if_true] at h1
    have := pure_ok h1
    subst this
    exact ⟨hq.1, rfl⟩
  · simp only [readCases, Option.getD_some, ha, hl, item, ok_bind _ rfl, Bool.false_eq_true, if_false] at h1
    have := pure_ok h1
    subst this
    refine ⟨rfl, fun hne => ?_⟩
    rw [hq.1]
    cases l with
    | nil => exact absurd rfl hne
    | cons x l => rfl

example : ∃ q p, readOutputs (some { all := some false, subset := some [0, 2] }) (some { vars := some ["power"] }) (some exFlow) [100] = .ok (some q, some p) := ⟨_, _, rfl⟩

end Foxes.Props.WioAttrs
