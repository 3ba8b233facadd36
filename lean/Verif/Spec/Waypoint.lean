import Verif.Model.Waypoint
/-!
# What a waypoint reader should return
-/

namespace Verif.Spec

/-- The samples that exceed the given time and all samples before them. -/
def maxima (last : Int) : List WSample → List WSample
  | [] => []
  | s :: ss => if last < s.time then s :: maxima s.time ss else maxima last ss

/-- Strictly increasing times. -/
def Increasing (l : List WSample) : Prop := l.Pairwise (fun a b => a.time < b.time)

/-- The samples later than a time. -/
def later (t : Int) (l : List WSample) : List WSample := l.filter (fun s => t < s.time)

/-- Nothing is left, or the last sample is later than the given time and than all others. -/
def EndsFresh (last : Int) (l : List WSample) : Prop :=
  l = [] ∨ ∃ pre w, l = pre ++ [w] ∧ last < w.time ∧ ∀ p ∈ pre, p.time < w.time

/-- Time of the last sample, or the given time if there is none. -/
def endTime (last : Int) (l : List WSample) : Int := (l.getLast?.map (·.time)).getD last

end Verif.Spec
