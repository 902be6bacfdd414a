import Verif.Model.Base
import Verif.Model.Scalar
import Verif.Model.Problem
import Verif.Model.Geometry
import Verif.Model.Util
import Verif.Model.InitialGuess
import Verif.Model.Constraint
import Verif.Model.Builder
import Verif.Model.Edit
import Verif.Model.Generator
import Verif.Model.Trajectory
import Verif.Model.Real
import Verif.Model.Double
import Verif.Model.Runtime
import Verif.Model.FFI
import Verif.Model.Examples
import Verif.Model.Expected
import Verif.Props.Layout
import Verif.Props.Interp
import Verif.Props.InitialGuess
import Verif.Props.Builder
import Verif.Props.Geometry
import Verif.Props.Constraint
import Verif.Props.Obstacle
import Verif.Props.Separation
import Verif.Props.Generator
import Verif.Props.Physics
import Verif.Props.Invariance
import Verif.Props.Trajectory
import Verif.Props.Runtime
import Verif.Props.FFI
import Verif.Props.Reach
import Verif.Props.Tolerance
import Verif.Props.Expected
import Verif.Props.EndToEnd
import Verif.Props.Split
import Verif.Props.DoubleAngle
import Verif.Props.Rounding
import Verif.Props.RoundingPath
import Verif.Props.Edit
import Verif.Props.Optimal
import Verif.Props.Drivable
import Verif.Props.Units
import Verif.Props.History
import Verif.Props.Examples
import Verif.Props.Return
import Verif.Spec.Return
import Verif.Props.Turns
import Verif.Spec.Turns
import Verif.Props.Watch
import Verif.Spec.Watch
import Verif.Props.Again
import Verif.Spec.Again
import Verif.Props.Responds
import Verif.Lemmas.Responds
import Verif.Spec.Responds
import Verif.Props.FirstOrder
import Verif.Props.Unbalanced
import Verif.Lemmas.Eased
import Verif.Lemmas.FirstOrder
import Verif.Lemmas.FritzJohn
import Verif.Spec.FirstOrder
import Verif.Props.Refuse
import Verif.Model.Refuse
import Verif.Props.Interior
import Verif.Props.Steer
import Verif.Props.Standing
import Verif.Props.Unique
import Verif.Props.Begin
import Verif.Props.Tenth
import Verif.Props.Stable
import Verif.Props.Mix
import Verif.Props.Nearby
import Verif.Props.Reguess
import Verif.Props.Divide
import Verif.Props.Limit
import Verif.Props.Size
import Verif.Props.Locality
import Verif.Props.Smooth
import Verif.Props.Independent
import Verif.Props.Looser
import Verif.Props.Serde
import Verif.Spec.SerdeErrors
import Verif.Props.SerdeErrors
import Verif.Props.Turn
import Verif.Props.IeeeSpecial
import Verif.Props.Exhaust
import Verif.Props.Slow
import Verif.Props.Respond
import Verif.Props.ExpectedVoid
import Verif.Props.Alias
import Verif.Props.Exact
import Verif.Props.Clearance
import Verif.Props.Ieee
import Verif.Props.Backwards
import Verif.Props.Intervals
import Verif.Props.Finite
import Verif.Props.Race
import Verif.Props.Axes
import Verif.Props.Stronger
import Verif.Props.Energy
import Verif.Props.Wide
import Verif.Props.Extended
import Verif.Props.Objects
import Verif.Props.Exceptions
import Verif.Props.Throttle
import Verif.Props.Start
import Verif.Props.Visits
import Verif.Props.Sides
import Verif.Tests
