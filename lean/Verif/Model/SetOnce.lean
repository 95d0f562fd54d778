import Mathlib.Data.List.Basic
/-
`SetFarmVars` with the flag `once` (foxes/models/turbine_models/set_farm_vars.py:24-39, 67-86, 244-293) over the life of an algorithm: one variable,
all evaluations of the model in all chunks of all calculations, in the order in which they happen. Reading the user's data in downwind order is
the subject of C34; here `data` are the values the model finds for the chunk.

Simplifications: one variable; a value is `none` for NaN.
-/
namespace Foxes.SetOnce

variable {K : Type}

/-- an array over states of a chunk and turbines -/
abbrev Arr (K : Type) := ℕ → ℕ → Option K

/-- One evaluation of the model: the chunk, by its first state (`mdata.states_i0(counter=True)`, line 271); what other models did to the variable in the
farm data of the chunk since the last evaluation; the selection `st_sel` (lines 281-282), which the controller gives (farm_controller.py:278-295) -/
structure Event (K : Type) where
  i0 : ℕ
  change : Arr K → Arr K
  sel : ℕ → ℕ → Bool

/-- the farm data of all chunks, and `__once_done` -/
structure St (K : Type) where
  fd : ℕ → Arr K
  done : ℕ → Bool

/-- `fdata[v][tsel] = data[tsel]` (lines 284-289) -/
def write (sel : ℕ → ℕ → Bool) (data old : Arr K) : Arr K := fun s t => if sel s t && (data s t).isSome then data s t else old s t

/-- the change by others, then `calculate` (lines 271-293). `data i0` are the data for the chunk. -/
def step (once : Bool) (data : ℕ → Arr K) (st : St K) (e : Event K) : St K :=
  let a := e.change (st.fd e.i0)
  if !once || !st.done e.i0 then
    { fd := fun c => if c = e.i0 then write e.sel (data e.i0) a else st.fd c,
      done := fun c => if c = e.i0 then true else st.done c }
  else { st with fd := fun c => if c = e.i0 then a else st.fd c }

/-- evaluations in the order in which they happen: the chunks of a pool of threads interleave in any way -/
def run (once : Bool) (data : ℕ → Arr K) (es : List (Event K)) (st : St K) : St K := es.foldl (step once data) st

/-- One call of `calc_farm`, or one iteration of the iterative algorithm: the farm data at its beginning (NaN, engine.py:375-381, or those of the previous
iteration), the evaluations, and `finalize`: if it is set, then the model will be initialised again by the next calculation (downwind.py:590-592,
set_farm_vars.py:67-86), otherwise it will not (model.py:143). -/
structure Calc (K : Type) where
  start : ℕ → Arr K
  events : List (Event K)
  finalize : Bool

/-- One calculation: results and `__once_done` of the user's model object afterwards. `shared`: the evaluations happen in the user's process (engines
single, numpy, threads), so that they use and change that object; else (engines process, mpi, dask with processes) each job gets a copy of the object
as it is when the calculation starts (pool.py:244-256, futures.py:38), which is lost with the job. A job is one chunk, so copies of
different jobs can be written as one. -/
def calcStep (shared once : Bool) (data : ℕ → Arr K) (done : ℕ → Bool) (c : Calc K) : (ℕ → Arr K) × (ℕ → Bool) :=
  let r := run once data c.events { fd := c.start, done := done }
  (r.fd, if c.finalize then fun _ => false else if shared then r.done else done)

/-- the results of a session of calculations with the same algorithm -/
def session (shared once : Bool) (data : ℕ → Arr K) : (ℕ → Bool) → List (Calc K) → List (ℕ → Arr K)
  | _, [] => []
  | done, c :: cs =>
      let r := calcStep shared once data done c
      r.1 :: session shared once data r.2 cs

/-- a session of the iterative algorithm: each iteration starts with the farm data of the one before (iterative.py:298-304) -/
def iterate (shared once : Bool) (data : ℕ → Arr K) : (ℕ → Bool) → (ℕ → Arr K) → List (List (Event K)) → (ℕ → Arr K)
  | _, fd, [] => fd
  | done, fd, es :: its =>
      let r := calcStep shared once data done { start := fd, events := es, finalize := false }
      iterate shared once data r.2 r.1 its

end Foxes.SetOnce
