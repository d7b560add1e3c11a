import Verif.Ops
import Mathlib.Logic.Function.Iterate
import Mathlib.Data.List.Count

/-!
# Interleaved execution of the parallel loops

The kernels of `src/batoid.cpp` run `#pragma omp parallel for` (host, e.g. L92, L132, L167, L221, L319, L429,
L579, L718) or `#pragma omp target teams distribute parallel for` (device) over the ray index `i`.  Iteration `i`
loads fields of ray `i` into local variables, computes, and stores fields of ray `i`.  Here the iterations are
split into micro-steps (one field load, the local computation, one field store) and a *schedule* is any list of
iteration indices saying whose next micro-step runs.  Memory is sequentially consistent per location.

Simplification: the C++ code stores only the fields that change; here every field is stored, unchanged ones with
the value loaded.  Row `i` of the memory stands for element `i` of each of the eleven arrays (and, for `rSplit`, of
the eleven arrays of `rvSplit`).
-/

namespace Batoid.Schedule

/-- A machine state: one row of shared memory, one set of local variables and one program counter per iteration. -/
structure State (C R : Type) where
  mem : ℕ → C
  reg : ℕ → R
  pc : ℕ → ℕ

variable {C R : Type}

/-- Program of one iteration: micro-steps acting on its row and its local variables. -/
abbrev Program (C R : Type) := List (C × R → C × R)

/-- One micro-step of a single iteration, with its program counter; past the end nothing happens. -/
def localStep (prog : Program C R) (s : C × R × ℕ) : C × R × ℕ :=
  match prog[s.2.2]? with
  | none => s
  | some f => ((f (s.1, s.2.1)).1, (f (s.1, s.2.1)).2, s.2.2 + 1)

/-- The scheduler runs the next micro-step of iteration `i`. -/
def step (prog : Program C R) (st : State C R) (i : ℕ) : State C R :=
  let l := localStep prog (st.mem i, st.reg i, st.pc i)
  { mem := Function.update st.mem i l.1
    reg := Function.update st.reg i l.2.1
    pc := Function.update st.pc i l.2.2 }

/-- Run a schedule. -/
def run (prog : Program C R) (st : State C R) (sched : List ℕ) : State C R := sched.foldl (step prog) st

/-- What iteration `i` can see. -/
def State.view (st : State C R) (i : ℕ) : C × R × ℕ := (st.mem i, st.reg i, st.pc i)

theorem view_step_self (prog : Program C R) (st : State C R) (i : ℕ) :
    (step prog st i).view i = localStep prog (st.view i) := by
  simp [step, State.view]

theorem view_step_other (prog : Program C R) (st : State C R) {i j : ℕ} (h : j ≠ i) :
    (step prog st i).view j = st.view j := by
  simp [step, State.view, Function.update_of_ne h]

/-- What iteration `i` sees after a schedule depends only on how often it was picked. -/
theorem view_run (prog : Program C R) (st : State C R) (sched : List ℕ) (i : ℕ) :
    (run prog st sched).view i = (localStep prog)^[sched.count i] (st.view i) := by
  induction sched generalizing st with
  | nil => rfl
  | cons k ks ih =>
    rw [run, List.foldl_cons, ← run, ih]
    by_cases h : k = i
    · subst h
      rw [List.count_cons_self, Function.iterate_succ_apply, view_step_self]
    · rw [view_step_other prog st (Ne.symm h), List.count_cons_of_ne h]

/-- Past the end of the program further picks change nothing. -/
theorem iterate_done (prog : Program C R) (c : C) (r : R) (n : ℕ) :
    (localStep prog)^[n] (c, r, prog.length) = (c, r, prog.length) := by
  induction n with
  | zero => rfl
  | succ n ih =>
    rw [Function.iterate_succ_apply]
    have : localStep prog (c, r, prog.length) = (c, r, prog.length) := by simp [localStep]
    rw [this, ih]

/-- Running a whole program without interruption. -/
def runAlone (prog : Program C R) (s : C × R) : C × R := prog.foldl (fun s f => f s) s

theorem iterate_run (prog : Program C R) (c : C) (r : R) (n : ℕ) (hn : prog.length ≤ n) :
    (localStep prog)^[n] (c, r, 0) = ((runAlone prog (c, r)).1, (runAlone prog (c, r)).2, prog.length) := by
  -- after k steps the first k micro-steps have been executed
  have key : ∀ k ≤ prog.length, (localStep prog)^[k] (c, r, 0)
      = ((runAlone (prog.take k) (c, r)).1, (runAlone (prog.take k) (c, r)).2, k) := by
    intro k hk
    induction k with
    | zero => rfl
    | succ k ih =>
      have hk' : k < prog.length := hk
      rw [Function.iterate_succ_apply', ih (Nat.le_of_lt hk')]
      have h1 : prog[k]? = some prog[k] := List.getElem?_eq_getElem hk'
      have h2 : runAlone (prog.take (k + 1)) (c, r) = prog[k] (runAlone (prog.take k) (c, r)) := by
        rw [List.take_add_one, h1]
        simp only [runAlone, List.foldl_append, Option.toList_some, List.foldl_cons, List.foldl_nil]
      rw [h2]
      simp only [localStep, h1]
  obtain ⟨m, rfl⟩ := Nat.exists_eq_add_of_le hn
  rw [Nat.add_comm, Function.iterate_add_apply, key _ le_rfl, List.take_length, iterate_done]

/-! ## The concrete programs -/

variable {F : Type}

/-- The eleven arrays of a ray vector. -/
inductive Field where
  | x | y | z | vx | vy | vz | t | wavelength | flux | vignetted | failed

/-- Copy one field of `src` into `dst`. -/
def copyField (f : Field) (src dst : Ray F) : Ray F :=
  match f with
  | .x => { dst with r := { dst.r with x := src.r.x } }
  | .y => { dst with r := { dst.r with y := src.r.y } }
  | .z => { dst with r := { dst.r with z := src.r.z } }
  | .vx => { dst with v := { dst.v with x := src.v.x } }
  | .vy => { dst with v := { dst.v with y := src.v.y } }
  | .vz => { dst with v := { dst.v with z := src.v.z } }
  | .t => { dst with t := src.t }
  | .wavelength => { dst with wavelength := src.wavelength }
  | .flux => { dst with flux := src.flux }
  | .vignetted => { dst with vignetted := src.vignetted }
  | .failed => { dst with failed := src.failed }

/-- All fields, in the order the kernels declare their pointers. -/
def allFields : List Field := [.x, .y, .z, .vx, .vy, .vz, .t, .wavelength, .flux, .vignetted, .failed]

/-- Load, compute, store: the shape of every loop body of src/batoid.cpp. -/
def kernelProgram (k : Ray F → Ray F) : Program (Ray F) (Ray F) :=
  allFields.map (fun f s => (s.1, copyField f s.1 s.2)) ++ [fun s => (s.1, k s.2)]
    ++ allFields.map (fun f s => (copyField f s.2 s.1, s.2))

/-- `rSplit` (src/batoid.cpp L581-673) loads from `rv` and stores into `rv` and `rvSplit`. -/
def splitProgram (k : Ray F → Ray F × Ray F) : Program (Ray F × Ray F) (Ray F × Ray F) :=
  allFields.map (fun f s => (s.1, (copyField f s.1.1 s.2.1, s.2.2))) ++ [fun s => (s.1, k s.2.1)]
    ++ allFields.map (fun f s => ((copyField f s.2.1 s.1.1, s.1.2), s.2))
    ++ allFields.map (fun f s => ((s.1.1, copyField f s.2.2 s.1.2), s.2))

theorem copy_all (src dst : Ray F) : allFields.foldl (fun d f => copyField f src d) dst = src := by
  cases src; cases dst; rfl

theorem alone_append (p q : Program C R) (s : C × R) : runAlone (p ++ q) s = runAlone q (runAlone p s) := by
  simp [runAlone, List.foldl_append]

theorem alone_loads {A : Type} (fs : List A) (g : A → C → R → R) (c : C) (r : R) :
    runAlone (fs.map (fun f s => (s.1, g f s.1 s.2))) (c, r) = (c, fs.foldl (fun d f => g f c d) r) := by
  induction fs generalizing r with
  | nil => rfl
  | cons f fs ih => exact ih _

theorem alone_stores {A : Type} (fs : List A) (g : A → R → C → C) (c : C) (r : R) :
    runAlone (fs.map (fun f s => (g f s.2 s.1, s.2))) (c, r) = (fs.foldl (fun d f => g f r d) c, r) := by
  induction fs generalizing c with
  | nil => rfl
  | cons f fs ih => exact ih _

theorem kernelProgram_alone (k : Ray F → Ray F) (c r : Ray F) :
    (runAlone (kernelProgram k) (c, r)).1 = k c := by
  rw [kernelProgram, alone_append, alone_append, alone_loads allFields (fun f c r => copyField f c r), copy_all]
  rw [show runAlone [fun s : Ray F × Ray F => (s.1, k s.2)] (c, c) = (c, k c) from rfl]
  rw [alone_stores allFields (fun f r c => copyField f r c), copy_all]

theorem fold_fst {A B D : Type} (fs : List A) (g : A → B → B) (p : B × D) :
    fs.foldl (fun d f => (g f d.1, d.2)) p = (fs.foldl (fun d f => g f d) p.1, p.2) := by
  induction fs generalizing p with
  | nil => rfl
  | cons f fs ih => exact ih _

theorem fold_snd {A B D : Type} (fs : List A) (g : A → D → D) (p : B × D) :
    fs.foldl (fun d f => (d.1, g f d.2)) p = (p.1, fs.foldl (fun d f => g f d) p.2) := by
  induction fs generalizing p with
  | nil => rfl
  | cons f fs ih => exact ih _

theorem splitProgram_alone (k : Ray F → Ray F × Ray F) (c r : Ray F × Ray F) :
    (runAlone (splitProgram k) (c, r)).1 = k c.1 := by
  rw [splitProgram, alone_append, alone_append, alone_append,
    alone_loads allFields (fun f (c r : Ray F × Ray F) => (copyField f c.1 r.1, r.2)),
    fold_fst allFields (fun f d => copyField f c.1 d), copy_all]
  rw [show runAlone [fun s : (Ray F × Ray F) × (Ray F × Ray F) => (s.1, k s.2.1)] (c, (c.1, r.2)) = (c, k c.1) from rfl]
  rw [alone_stores allFields (fun f (r c : Ray F × Ray F) => (copyField f r.1 c.1, c.2)),
    fold_fst allFields (fun f d => copyField f (k c.1).1 d), copy_all,
    alone_stores allFields (fun f (r c : Ray F × Ray F) => (c.1, copyField f r.2 c.2)),
    fold_snd allFields (fun f d => copyField f (k c.1).2 d), copy_all]

end Batoid.Schedule
