import Verif.Examples.Demo
/-
  A history with an interest auction.
-/

namespace Blend
namespace Demo
open Pool

/-- bob's loan accrues interest for twelve years; then the backstop's share of it is auctioned -/
def interest : List Op := [
  .ledger 400000000 1000000,
  prices 2113138900 10000000 1000000,
  .pool poolA [] (.newInterest [usdcA, xlmA])]

end Demo
end Blend
