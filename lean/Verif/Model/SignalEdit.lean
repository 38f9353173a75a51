import Verif.Model.Message

/-
database/can/signal.py:181-236: assignments to attributes of signals.
-/

namespace Cantools

/-- An assignment to an attribute of a signal that is stored in its conversion. -/
inductive Assignment where
  | scale (value : Rat)
  | offset (value : Rat)
  | choices (value : Option Choices)
  | isFloat (value : Bool)
  deriving DecidableEq, Repr

/-- database/can/signal.py:181-236, and database/diagnostics/data.py:84-136: the setters of `scale`, `offset`, `choices`
and `is_float` make a new conversion from the attributes of the old one. -/
def Conversion.assign (c : Conversion) : Assignment → Conversion
  | .scale v => .factory v c.offset c.choices c.isFloat
  | .offset v => .factory c.scale v c.choices c.isFloat
  | .choices v => .factory c.scale c.offset v c.isFloat
  | .isFloat v => .factory c.scale c.offset c.choices v

/-- The assignment for a signal. -/
def Signal.assign (s : Signal) (a : Assignment) : Signal := { s with conversion := s.conversion.assign a }

/-- database/can/signal.py:95-113: a signal with its initial value, which is computed by the constructor. -/
structure SignalObject where
  signal : Signal
  rawInitial : Option Rat
  initial : Option Value
  deriving DecidableEq, Repr

/-- database/can/signal.py:46-154: the constructor. -/
def SignalObject.create (s : Signal) (rawInitial : Option Rat) : SignalObject :=
  { signal := s, rawInitial, initial := rawInitial.map fun r => s.conversion.rawToScaled r true }

/-- database/can/signal.py:181-236: assignments leave `initial` alone. -/
def SignalObject.assign (o : SignalObject) (a : Assignment) : SignalObject := { o with signal := o.signal.assign a }

/-
The nodes of a codec refer to the signal objects of the message, so that an assignment changes the signals in it.
-/
mutual
def Codec.onSignals (f : Signal → Signal) : Codec → Codec
  | .mk signals muxes => .mk (signals.map f) (muxes.onSignals f)
def Muxes.onSignals (f : Signal → Signal) : Muxes → Muxes
  | .nil => .nil
  | .cons n b r => .cons n (b.onSignals f) (r.onSignals f)
def Branches.onSignals (f : Signal → Signal) : Branches → Branches
  | .nil => .nil
  | .cons i c r => .cons i (c.onSignals f) (r.onSignals f)
end

/-- The assignment for the signals of a name. -/
def assignTo (name : String) (a : Assignment) (s : Signal) : Signal := if s.name == name then s.assign a else s

/-- message.py:145-204, 1204-1205: an assignment to a signal of a message, `m.get_signal_by_name(name).scale = …`, without
`refresh`.  Formats are made by the constructor (message.py:199-204) and not again; they depend on a conversion only by
`is_float`, so that this is only a model of the other assignments.  Simplification: if several signals have the name, all are changed, the
code changes the last one. -/
def Message.assign (m : Message) (name : String) (a : Assignment) : Message :=
  { m with signals := m.signals.map (assignTo name a), codec := m.codec.onSignals (assignTo name a) }

end Cantools
