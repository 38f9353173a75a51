import Verif.Model.CSource
import Verif.Model.CHeader

/-
database/can/c_source.py: the fuzzer that is generated together with the C code.
-/

namespace Cantools.C

/-- How a test of the fuzzer ends: the input is no frame of the message, all assertions hold, or one of them calls
`__builtin_trap`. -/
inductive FuzzResult where
  | rejected
  | passed
  | trapped
  deriving DecidableEq, Repr

/-- An uninitialised array of `n` bytes (`uint8_t packed[size]`; a size of 0 is undefined in C, but not with the compiler
that the makefile asks for). -/
def uninitialised (junk : Nat → UInt8) (n : Nat) : Bytes := (List.range n).map junk

/-- c_source.py:174-181, 300-348: `test_{name}` for an input.  The structs are compared member by member (`memcmp` also
compares the bytes between members, which were set to zero and are not written to). -/
def fuzzTest (m : Message) (packCode : Code PackSignal) (unpackCode : Code UnpackSignal) (junk junk2 : Nat → UInt8)
    (input : Bytes) : Except CErr FuzzResult :=
  match unpack m unpackCode (fun _ => 0) input with
  | .error .undefined => .error .undefined
  | .error .einval => .ok .rejected
  | .ok unpacked =>
    match pack m packCode (uninitialised junk input.length) unpacked with
    | .error .undefined => .error .undefined
    | .error .einval => .ok .trapped
    | .ok (res, packed) =>
      match unpack m unpackCode (fun _ => 0) (packed.take res) with
      | .error .undefined => .error .undefined
      | .error .einval => .ok .trapped
      | .ok unpacked2 =>
        if m.signals.all fun s => unpacked s.name == unpacked2 s.name then
          match pack m packCode (uninitialised junk2 input.length) unpacked with
          | .error .undefined => .error .undefined
          | .error .einval => .ok .trapped
          | .ok (res2, packed2) =>
            if res = res2 ∧ packed.take res = packed2.take res then .ok .passed else .ok .trapped
        else .ok .trapped

/-- c_source.py:1725-1754 `_generate_fuzzer_source`: the functions of the generated code that the tests call. -/
def fuzzCalls (o : Options) (ms : List GenMessage) : List Chars :=
  ms.flatMap fun m => [under (o.stem m) "unpack".toList, under (o.stem m) "pack".toList]

end Cantools.C
