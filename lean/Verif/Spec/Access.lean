import Verif.Spec
/-
  Vocabulary of the access control properties (C10, C29).
-/

namespace Blend
namespace Spec

/-- the accounts (or foreign contracts) that signed an operation -/
def signers : Op → List Address
  | .pool _ auth _ => auth
  | .backstop auth _ => auth
  | .emitter auth _ => auth
  | .factory auth _ => auth
  | .tokenTransfer _ src _ _ => [src]
  | .tokenBurn _ src _ => [src]
  | .tokenApprove _ owner _ _ _ => [owner]
  | _ => []

/-- `x` is the account `from` of a submit, is named in a request to fill a liquidation auction (type 6), or is the
backstop of the pool and there is a request to fill a bad debt auction (type 7) -/
def SubmitConcerns (ps : PoolState) (sender : Address) (reqs : List Pool.Request) (x : Address) : Prop :=
  x = sender ∨ (∃ q ∈ reqs, q.type = 6 ∧ q.address = x) ∨
  ((∃ q ∈ reqs, q.type = 7) ∧ ∃ i, ps.inst = some i ∧ x = i.backstop)

/-- whose consent the entry points of pool and backstop that act for an account need -/
def NeedsAuth : Op → Address → Prop
  | .pool _ _ (.submit sender spender _ _) => fun x => x = sender ∨ x = spender
  | .pool _ _ (.claim sender _ _) => fun x => x = sender
  | .backstop _ (.deposit sender _ _) => fun x => x = sender
  | .backstop _ (.queueWithdrawal sender _ _) => fun x => x = sender
  | .backstop _ (.dequeueWithdrawal sender _ _) => fun x => x = sender
  | .backstop _ (.withdraw sender _ _) => fun x => x = sender
  | .backstop _ (.claim sender _ _) => fun x => x = sender
  | .backstop _ (.donate sender pool _) => fun x => x = sender ∨ x = pool
  | .backstop _ (.draw pool _ _) => fun x => x = pool
  | .backstop _ (.gulpPoolEmissions pool) => fun x => x = pool
  | .factory _ (.deploy admin _ _ _ _) => fun x => x = admin
  | _ => fun _ => False

end Spec
end Blend
