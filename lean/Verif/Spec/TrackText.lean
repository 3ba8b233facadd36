import Verif.Model.TrackText
import Verif.Spec.Fleet
import Verif.Spec.IpTrace
/-!
# What the file of the tracing program tells
-/

namespace Verif.Spec

/-- `line` says that satellite `node` is at `(x, y, z)` and has this speed at time `t`, in decimal notation. -/
def ShowsTrack (line : List Char) (t node : Nat) (x y z v : ℚ) : Prop :=
  ∃ lt ln lx ly lz lv : List Char, Numeral lt t ∧ Numeral ln node ∧ IsFloat lx x ∧ IsFloat ly y ∧ IsFloat lz z ∧ IsFloat lv v ∧
    line = "+".toList ++ lt ++ ".0ns:".toList ++ ln ++ ":".toList ++ lx ++ ":".toList ++ ly ++ ":".toList ++ lz ++ ":".toList ++ lv

/-- The numbers computed for a line differ from the exact ones by at most `ε`. -/
def ComputedTo (ε : ℝ) (l : TrackLine) (c : Computed) : Prop :=
  |(c.x : ℝ) - l.pos.x| ≤ ε ∧ |(c.y : ℝ) - l.pos.y| ≤ ε ∧ |(c.z : ℝ) - l.pos.z| ≤ ε ∧ |(c.speed : ℝ) - l.speed| ≤ ε

/-- The line tells time and satellite, the position to `δ` metres in each coordinate and the speed to `η` metres per second. -/
def TellsTo (δ η : ℝ) (line : List Char) (l : TrackLine) : Prop :=
  ∃ x y z v : ℚ, ShowsTrack line l.time l.node x y z v ∧
    |(x : ℝ) - l.pos.x| ≤ δ ∧ |(y : ℝ) - l.pos.y| ≤ δ ∧ |(z : ℝ) - l.pos.z| ≤ δ ∧ |(v : ℝ) - l.speed| ≤ η

/-- The file has as many columns in every line, separated by commas. -/
def IsCsv (file : List (List Char)) : Prop := ∀ a ∈ file, ∀ b ∈ file, a.count ',' = b.count ','

end Verif.Spec
