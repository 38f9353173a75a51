import Verif.Model.Message

/-
The signal tree of a message, and tester.py's inversion of it.
-/

namespace Cantools

/-- message.py:509-522, 1300: `Message.signal_tree`. -/
def Message.signalTree (m : Message) : SigTree := treeOfCodec m.codec

/-- A multiplexer setting: the items of `cur_mpx`, a set of (selector, id) pairs. -/
abbrev Setting := List (String × Int)

/-- tester.py:64: `ret.setdefault(sigs, []).append(set(cur_mpx.items()))`. -/
def appendSetting (ret : List (String × List Setting)) (name : String) (cur : Setting) :
    List (String × List Setting) :=
  dictSet ret name ((dictGet? ret name).getD [] ++ [cur])

/-
tester.py:36-68 `_invert_signal_tree`.  A tree consists of strings and single-element dicts only, so
the `TypeError` of line 66 is not modelled.  `ret` is threaded, in python it is modified in place.
-/
mutual
def invertTree (cur : Setting) (ret : List (String × List Setting)) :
    SigTree → List (String × List Setting)
  | .nil => ret
  | .leaf name rest => invertTree cur (appendSetting ret name cur) rest
  | .mux name branches rest => invertTree cur (invertBranches cur name ret branches) rest
def invertBranches (cur : Setting) (name : String) (ret : List (String × List Setting)) :
    TreeBranches → List (String × List Setting)
  | .nil => ret
  | .cons i tree rest => invertBranches cur name (invertTree (dictSet cur name i) ret tree) rest
end

/-- tester.py:70-77 `invert_signal_tree`. -/
def invertSignalTree (tree : SigTree) : List (String × List Setting) := invertTree [] [] tree

end Cantools
