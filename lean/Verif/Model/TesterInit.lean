import Verif.Model.Tester
import Verif.Model.InvertTree

/-
tester.py: creating the messages of a tester with their initial values.
-/

namespace Cantools.Tester
open Cantools

/-- python truth of a signal value: 0 and the empty string are false, a `NamedSignalValue` is always
true. -/
def truthy : Value → Bool
  | .num q => decide (q ≠ 0)
  | .str c => decide (c ≠ "")
  | .named _ => true

/-- can/signal.py:101-103: `Signal.initial` of a signal with a raw initial value. -/
def initialOf (s : Signal) (raw : Option Rat) : Option Value :=
  raw.map fun r => s.conversion.rawToScaled r true

/-- tester.py:269-273: the multiplexer settings; of several values for a selector the last one
counts. -/
def mplexSettings (m : Message) : Setting :=
  (((invertSignalTree m.signalTree).map (·.2)).reverse.flatten).foldl dictUpdate []

/-- tester.py:276-288: the initial value of one signal; `raw` is its `raw_initial`. -/
def initialValue (settings : Setting) (raw : Option Rat) (s : Signal) : Value :=
  let minimum := s.minimum.getD 0
  let maximum := s.maximum.getD 0
  match (initialOf s raw).filter truthy with
  | some v => v
  | none =>
    if s.isMultiplexer then .num ((dictGet? settings s.name).getD 0)
    else if minimum ≤ 0 ∧ 0 ≤ maximum then .num 0
    else .num minimum

/-- tester.py:266-289 `_prepare_initial_signal_values`; `raw` gives `Signal.raw_initial`. -/
def initialValues (m : Message) (raw : Signal → Option Rat) : List (String × Value) :=
  m.signals.foldl (fun d s => dictSet d s.name (initialValue (mplexSettings m) (raw s) s)) []

/-- tester.py:117-140 `Message.__init__`. -/
def newMessage (fo : FloatOps) (m : Message) (raw : Signal → Option Rat) (scaling padding strict : Bool) :
    Except Err TMessage :=
  match update fo { database := m, scaling, padding, strict } (initialValues m raw) with
  | (.ok (), t) => .ok t
  | (.error e, _) => .error e

end Cantools.Tester
