import Verif.Model.SecOC

/-
autosar/snakeauth.py: the authenticator that is shipped as an example.
-/

namespace Cantools.SnakeOil

/-- snakeauth.py:32-34: the loop over the data, from position `i` on. -/
def mix (secret : Bytes) (i : Nat) (result : Bytes) : Bytes → Except Err Bytes
  | [] => .ok result
  | b :: data =>
    if secret = [] then .error .zeroDivisionError
    else mix secret (i + 1)
      (result.set (i % result.length)
        ((result.getD (i % result.length) 0 ^^^ b) ^^^ secret.getD (i % secret.length) 0)) data

/-- snakeauth.py:22-36 `SnakeOilAuthenticator.__call__`; the message is not used. -/
def authenticator (secret : Bytes) (data : Bytes) (freshness : Int) : Except Err Bytes :=
  mix secret 0 (List.replicate 5 (UInt8.ofNat (freshness % 253).toNat)) data

end Cantools.SnakeOil
