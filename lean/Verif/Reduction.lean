import Verif.Ray

/-!
# Sums by several threads

`sumAmplitude` adds up the waves of the rays in a loop with an OpenMP `reduction` clause: each thread adds the rays it is given to a sum of its
own, which starts at zero, and the sums are added up in an order that is not specified.
-/

namespace Batoid.RayVec
variable {F : Type} [Arith F]

/-- What the loop with `reduction(+:real, imag)` of `sumAmplitude` can give: src/rayVector.cpp L200-222.  `Reduced r t ig n l a`: the threads have
added up the rays `l` to `a`, with at most `n` additions for each ray.  A thread runs the loop over its rays; sums are added in any grouping; rays
are given to the threads in any order. -/
inductive Reduced (r : V3 F) (t : F) (ig : Bool) : ℕ → List (Ray F) → F × F → Prop
  | loop (l : List (Ray F)) : Reduced r t ig l.length l (l.foldl (sumAmplitudeStep r t ig) (0, 0))
  | join {m n : ℕ} {l l' : List (Ray F)} {a b : F × F} :
      Reduced r t ig m l a → Reduced r t ig n l' b → Reduced r t ig (max m n + 1) (l ++ l') (a.1 + b.1, a.2 + b.2)
  | order {n : ℕ} {l l' : List (Ray F)} {a : F × F} : Reduced r t ig n l a → l.Perm l' → Reduced r t ig n l' a

end Batoid.RayVec
