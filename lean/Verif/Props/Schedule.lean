import Verif.Schedule
import Mathlib.Tactic.IntervalCases

/-!
# Property C16: batches equal single rays under every thread schedule
-/

namespace Batoid.Props
open Batoid Batoid.Schedule

/-- C16: run the loop of a kernel over the rays `0, ..., n-1` stored in memory, with the micro-steps of the iterations
interleaved in any order whatsoever.  As soon as the schedule has given every iteration below `n` enough turns, and
has not started any other iteration, the memory holds at `i < n` what the kernel alone makes of ray `i`, and is
untouched elsewhere.  Local variables may start with any garbage. -/
theorem C16_any_schedule {F : Type} (k : Ray F → Ray F) (n : ℕ) (mem : ℕ → Ray F) (garbage : ℕ → Ray F) (sched : List ℕ)
    (hdone : ∀ i < n, (kernelProgram k).length ≤ sched.count i) (hbound : ∀ i ∈ sched, i < n) :
    ∀ i, (Schedule.run (kernelProgram k) ⟨mem, garbage, fun _ => 0⟩ sched).mem i
      = if i < n then k (mem i) else mem i := by
  intro i
  have h := view_run (kernelProgram k) ⟨mem, garbage, fun _ => 0⟩ sched i
  have h1 : (Schedule.run (kernelProgram k) ⟨mem, garbage, fun _ => 0⟩ sched).mem i
      = ((Schedule.run (kernelProgram k) ⟨mem, garbage, fun _ => 0⟩ sched).view i).1 := rfl
  rw [h1, h]
  by_cases hi : i < n
  · simp only [hi, if_true]
    show ((localStep (kernelProgram k))^[sched.count i] (mem i, garbage i, 0)).1 = _
    rw [iterate_run _ _ _ _ (hdone i hi)]
    exact kernelProgram_alone k _ _
  · simp only [hi, if_false]
    have : sched.count i = 0 := List.count_eq_zero.mpr (fun hm => hi (hbound i hm))
    rw [this]; rfl

/-- C16 for the splitting kernel with its two output vectors (`rvSplit` may hold anything before). -/
theorem C16_any_schedule_split {F : Type} (k : Ray F → Ray F × Ray F) (n : ℕ) (mem : ℕ → Ray F × Ray F)
    (garbage : ℕ → Ray F × Ray F) (sched : List ℕ)
    (hdone : ∀ i < n, (splitProgram k).length ≤ sched.count i) (hbound : ∀ i ∈ sched, i < n) :
    ∀ i, (Schedule.run (splitProgram k) ⟨mem, garbage, fun _ => 0⟩ sched).mem i
      = if i < n then k (mem i).1 else mem i := by
  intro i
  have h := view_run (splitProgram k) ⟨mem, garbage, fun _ => 0⟩ sched i
  have h1 : (Schedule.run (splitProgram k) ⟨mem, garbage, fun _ => 0⟩ sched).mem i
      = ((Schedule.run (splitProgram k) ⟨mem, garbage, fun _ => 0⟩ sched).view i).1 := rfl
  rw [h1, h]
  by_cases hi : i < n
  · simp only [hi, if_true]
    show ((localStep (splitProgram k))^[sched.count i] (mem i, garbage i, 0)).1 = _
    rw [iterate_run _ _ _ _ (hdone i hi)]
    exact splitProgram_alone k _ _
  · simp only [hi, if_false]
    have : sched.count i = 0 := List.count_eq_zero.mpr (fun hm => hi (hbound i hm))
    rw [this]; rfl

/-- C16: for every public operation, the interleaved loop computes the batch semantics used in all other theorems. -/
theorem C16_schedule_implements_operation {F : Type} [Arith F] (op : RayOp F) (rv : RayVec F) (mem garbage : ℕ → Ray F)
    (hmem : ∀ i (h : i < rv.rays.length), mem i = rv.rays[i]) (sched : List ℕ)
    (hdone : ∀ i < rv.rays.length, (kernelProgram (op.onRay rv.coordSys)).length ≤ sched.count i)
    (hbound : ∀ i ∈ sched, i < rv.rays.length) (i : ℕ) (hi : i < (op.run rv).rays.length) :
    (Schedule.run (kernelProgram (op.onRay rv.coordSys)) ⟨mem, garbage, fun _ => 0⟩ sched).mem i = (op.run rv).rays[i] := by
  have hl : (op.run rv).rays.length = rv.rays.length := by rw [RayOp.run_rays, List.length_map]
  have hi' : i < rv.rays.length := hl ▸ hi
  rw [C16_any_schedule _ _ _ _ _ hdone hbound, if_pos hi', hmem i hi']
  have := RayOp.run_rays rv op
  simp only [this, List.getElem_map]

theorem runAll_coordSys {F : Type} [Arith F] (ops : List (RayOp F)) (rays rays' : List (Ray F)) (cs : CoordSys F) :
    (RayOp.runAll ⟨rays, cs⟩ ops).coordSys = (RayOp.runAll ⟨rays', cs⟩ ops).coordSys := by
  induction ops generalizing rays rays' cs with
  | nil => rfl
  | cons op ops ih =>
    have h1 : ∀ rs : List (Ray F), RayOp.runAll ⟨rs, cs⟩ (op :: ops)
        = RayOp.runAll ⟨rs.map (op.onRay cs), (op.run ⟨[], cs⟩).coordSys⟩ ops := by
      intro rs
      show RayOp.runAll (op.run ⟨rs, cs⟩) ops = _
      cases op <;> rfl
    rw [h1, h1]; exact ih _ _ _

theorem runAll_cons {F : Type} [Arith F] (op : RayOp F) (ops : List (RayOp F)) (rs : List (Ray F)) (cs : CoordSys F) :
    RayOp.runAll ⟨rs, cs⟩ (op :: ops)
      = RayOp.runAll ⟨rs.map (op.onRay cs), (op.run ⟨[], cs⟩).coordSys⟩ ops := by
  show RayOp.runAll (op.run ⟨rs, cs⟩) ops = _
  cases op <;> rfl

/-- C16: tracing a batch through any history of operations gives, ray by ray and in order, exactly what tracing each
ray alone gives; in particular any split of the batch gives the same result. -/
theorem C16_batch_is_single_rays {F : Type} [Arith F] (ops : List (RayOp F)) (rays : List (Ray F)) (cs : CoordSys F) :
    (RayOp.runAll ⟨rays, cs⟩ ops).rays = rays.flatMap (fun r => (RayOp.runAll ⟨[r], cs⟩ ops).rays) := by
  induction ops generalizing rays cs with
  | nil => simp [RayOp.runAll]
  | cons op ops ih =>
    simp only [runAll_cons, List.map_cons, List.map_nil]
    rw [ih, List.flatMap_map]

/-- C16: splitting the batch. -/
theorem C16_batch_append {F : Type} [Arith F] (ops : List (RayOp F)) (a b : List (Ray F)) (cs : CoordSys F) :
    (RayOp.runAll ⟨a ++ b, cs⟩ ops).rays = (RayOp.runAll ⟨a, cs⟩ ops).rays ++ (RayOp.runAll ⟨b, cs⟩ ops).rays := by
  rw [C16_batch_is_single_rays ops (a ++ b), List.flatMap_append, ← C16_batch_is_single_rays ops a,
    ← C16_batch_is_single_rays ops b]

/-- Non-vacuity: round-robin over three iterations is a complete schedule of the 23 micro-steps, and so is running the
iterations one after the other, backwards. -/
example (k : Ray Dbl → Ray Dbl) :
    (∀ i < 3, (kernelProgram k).length ≤ ((List.replicate 23 [0, 1, 2]).flatten).count i) ∧
    (∀ i < 3, (kernelProgram k).length
      ≤ (List.replicate 23 2 ++ List.replicate 23 1 ++ List.replicate 23 0).count i) := by
  have : (kernelProgram k).length = 23 := rfl
  rw [this]
  constructor <;> intro i hi <;> interval_cases i <;> decide

end Batoid.Props
