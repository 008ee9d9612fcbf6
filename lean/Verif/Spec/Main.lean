import Verif.Model.RunParams
/-!
Small specifications used by the driver properties.
-/
namespace TicTac.Spec

/-- Tokens of one line joined by single spaces. -/
def joinSpace : List (List Char) → List Char
  | [] => []
  | [t] => t
  | t :: ts => t ++ ' ' :: joinSpace ts

/-- Spin-parity of the 3N channel with number `c`: channels are ordered 1/2+, 1/2-, 3/2+, 3/2-, … (property C03). -/
def channelJP (c : Int) : Int × Int := (2 * (c / 2) + 1, if c % 2 = 0 then 1 else -1)

end TicTac.Spec
