import Mathlib.Data.Rat.Defs
import Mathlib.Algebra.Order.Field.Rat
import Mathlib.Order.MinMax

/-!
# The ventilation fan of the usage example

Model of the fan control in `doc/ade-thermistor-usage.py`, the program that shows what the result of the thermistor example is used
for: the temperature difference required, the decision, the switching, and the loop of `run`.

Simplifications: temperatures and times are rational numbers; the time (`datetime.now()`, which may be set back) is given with each
event and `datetime` is the module (line 105); the sensors are seen through the events (one of them offline, no new temperatures yet, new temperatures).
-/

set_option autoImplicit false

namespace Ade
namespace FanControl

/-- The settings at the head of the program (doc/ade-thermistor-usage.py:18-39). -/
structure Settings where
  /-- `T0`, nominal inside temperature -/
  t0 : ℚ
  /-- `TEMPDIFF_T0`, inside above outside before the fan goes on, at `T0` -/
  diff : ℚ
  /-- `TEMPDIFF_H`, the hysteresis -/
  hyst : ℚ
  /-- `INSIDE_MIN` -/
  low : ℚ
  /-- `INSIDE_MAX` -/
  high : ℚ
  /-- `TRANSITION_TIME`, in seconds -/
  rest : ℚ

/-- The values of the program. -/
def settings : Settings := ⟨20, 7 / 2, 1, 10, 45, 300⟩

/-- `tempDiff(inside)` (doc/ade-thermistor-usage.py:194-208). -/
def tempDiff (c : Settings) (inside : ℚ) : ℚ :=
  let m := -c.diff / (c.high - c.t0)
  let b := c.diff - m * c.t0
  max 0 (m * inside + b)

/-- `self.fanState`: the time of the last transition, and whether the fan is on (`None` before the first one). -/
structure St where
  since : ℚ
  on : Option Bool
  deriving DecidableEq

/-- `decideFan(outside, inside)` (doc/ade-thermistor-usage.py:210-223). -/
def decideFan (c : Settings) (s : St) (outside inside : ℚ) : Bool :=
  let inside := if s.on = some true then inside + c.hyst else inside
  if inside < c.low then false else decide (tempDiff c inside < inside - outside)

/-- What can be seen from outside: the pin is written, or a line is logged. -/
inductive Act where
  | write (time : ℚ) (on : Bool)
  | log (time outside inside : ℚ) (on : Bool)
  deriving DecidableEq

/-- Result of `setFan`: the new `fanState`, the writing to the pin if any, and the pair returned. -/
structure Res where
  st : St
  acts : List Act
  time : ℚ
  on : Bool
  deriving DecidableEq

/-- The last lines of `setFan` (doc/ade-thermistor-usage.py:190-192). -/
def switch (now : ℚ) (on : Bool) : Res := ⟨⟨now, some on⟩, [.write now on], now, on⟩

/-- `setFan(on)` (doc/ade-thermistor-usage.py:174-192). -/
def setFan (c : Settings) (s : St) (now : ℚ) (on : Bool) : Res :=
  if some on = s.on then ⟨s, [], now, on⟩
  else match s.on with
    | some isOn => if now - s.since < c.rest then ⟨s, [], now, isOn⟩ else switch now on
    | none => switch now on

/-- What an iteration of the loop finds. -/
inductive Event where
  /-- a sensor is offline -/
  | offline (now : ℚ)
  /-- `getTemps()` returns `None` -/
  | waiting
  | temps (now outside inside : ℚ)

/-- An iteration of the loop (doc/ade-thermistor-usage.py:229-255). -/
def step (c : Settings) (s : St) : Event → St × List Act
  | .offline now => ((setFan c s now false).st, (setFan c s now false).acts)
  | .waiting => (s, [])
  | .temps now outside inside =>
    let r := setFan c s now (decideFan c s outside inside)
    (r.st, r.acts ++ [.log r.time outside inside r.on])

/-- The iterations, starting with `fanState` `s`. -/
def iterate (c : Settings) : St → List Event → List Act
  | _, [] => []
  | s, e :: es => (step c s e).2 ++ iterate c (step c s e).1 es

/-- `run()` (doc/ade-thermistor-usage.py:225-255) of a program constructed at time `made` (the `fanState` of line 105), begun at
time `now`. -/
def run (c : Settings) (made now : ℚ) (es : List Event) : List Act :=
  let r := setFan c ⟨made, none⟩ now false
  r.acts ++ iterate c r.st es

end FanControl
end Ade
