import Verif.Spec.Recording
/-! What happens in calls that fail does not count: for authorization they are calls that do nothing. -/
namespace Soroban.Auth.Spec
open Soroban Soroban.Auth

mutual
/-- The steps of what contracts do, if calls that fail did nothing. -/
def flat : Act → List Ev
  | .call f body => .push f :: (flats body ++ [.pop])
  | .failed f _ => [.push f, .pop]
  | .require h args => [.require h args]
  | .authAs es => [.authAs es]
def flats : List Act → List Ev
  | [] => []
  | a :: as => flat a ++ flats as
end

end Soroban.Auth.Spec
