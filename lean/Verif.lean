import Verif.Model.System
import Verif.Spec
import Verif.Lemmas.Basic
import Verif.Lemmas.SMap
import Verif.Lemmas.Interest
import Verif.Lemmas.World
import Verif.Lemmas.BackstopOps
import Verif.Lemmas.Micro
import Verif.Lemmas.MicroOps
import Verif.Lemmas.MicroCtx
import Verif.Lemmas.MicroReq
import Verif.Lemmas.MicroFill
import Verif.Lemmas.MicroSubmit
import Verif.Lemmas.MicroCall
import Verif.Lemmas.MicroLiq
import Verif.Lemmas.PoolStep
import Verif.Lemmas.PoolCall
import Verif.Lemmas.CfgInv
import Verif.Lemmas.WorldStep
import Verif.Lemmas.Reach
import Verif.Lemmas.PoolInv
import Verif.Lemmas.Solvency
import Verif.Lemmas.SumLemmas
import Verif.Lemmas.EmisCore
import Verif.Lemmas.PoolEmis
import Verif.Lemmas.BEmis
import Verif.Lemmas.BMicro
import Verif.Lemmas.BCall
import Verif.Lemmas.BReach
import Verif.Lemmas.PhiSum
import Verif.Lemmas.BFrame
import Verif.Lemmas.Frames
import Verif.Lemmas.BOps
import Verif.Lemmas.BDeployed
import Verif.Lemmas.BStep
import Verif.Lemmas.LpInv
import Verif.Lemmas.Threshold
import Verif.Lemmas.BGulp
import Verif.Lemmas.BFields
import Verif.Props.Interest
import Verif.Props.Accounting
import Verif.Examples.Demo
import Verif.Examples.Tests.Actions
import Verif.Examples.Tests.Auction
import Verif.Examples.Tests.BackstopBalances
import Verif.Examples.Tests.BackstopEmissions
import Verif.Examples.Tests.BackstopFunds
import Verif.Examples.Tests.BadDebt
import Verif.Examples.Tests.Base
import Verif.Examples.Tests.Config
import Verif.Examples.Tests.Distributor
import Verif.Examples.Tests.Emissions
import Verif.Examples.Tests.EmitterFactory
import Verif.Examples.Tests.Fixture
import Verif.Examples.Tests.HappyPath
import Verif.Examples.Tests.Liquidation
import Verif.Examples.Tests.PoolUser
import Verif.Examples.Tests.Health
import Verif.Examples.Tests.InterestAuction
import Verif.Examples.Tests.Reserve
import Verif.Examples.Tests.Status
import Verif.Examples.Tests.Submit
import Verif.Examples.Tests.User
import Verif.Examples.Tests.UserLiq
import Verif.Props.PoolEmissions
import Verif.Props.Backstop
import Verif.Props.RewardZone
import Verif.Props.BackstopEmissions
import Verif.Spec.Emitter
import Verif.Lemmas.CfgFrame
import Verif.Lemmas.InstChange
import Verif.Lemmas.Minted
import Verif.Lemmas.EmitterInv
import Verif.Props.Emitter
import Verif.Spec.Admin
import Verif.Lemmas.AdminStep
import Verif.Props.Admin
import Verif.Props.Registry
import Verif.Lemmas.UserFrame
import Verif.Lemmas.Payers
import Verif.Lemmas.BUserFrame
import Verif.Lemmas.AuctionFrame
import Verif.Lemmas.AuctionStep
import Verif.Spec.Access
import Verif.Props.Authorization
import Verif.Lemmas.NoStatus
import Verif.Lemmas.ReqFrame
import Verif.Lemmas.SubmitView
import Verif.Lemmas.UtilCap
import Verif.Spec.Submit
import Verif.Lemmas.Plain
import Verif.Lemmas.PlainValue
import Verif.Lemmas.NoSubmit
import Verif.Props.Submit
import Verif.Spec.Health
import Verif.Lemmas.Health
import Verif.Lemmas.Liquidation
import Verif.Examples.HealthDemo
import Verif.Props.Health
import Verif.Spec.Auction
import Verif.Lemmas.Scale
import Verif.Lemmas.FullSubmit
import Verif.Lemmas.AuctionRun
import Verif.Examples.InterestDemo
import Verif.Props.Auctions
import Verif.Lemmas.BadDebtView
import Verif.Props.BadDebt
import Verif.Props.Isolation
import Verif.Lemmas.DataStep
import Verif.Props.Curve
import Verif.Props.NewAuctions
import Verif.Props.Entitlements
import Verif.Props.BackstopClaims
import Verif.Props.Exits
import Verif.Props.Returns
import Verif.Props.BackstopExits
import Verif.Lemmas.Blnd
import Verif.Props.Funding
import Verif.Lemmas.PoolFund
import Verif.Props.PoolFunding
import Verif.Lemmas.LiveClaim
import Verif.Props.ClaimLive
import Verif.Lemmas.LiveLiq
import Verif.Props.Liquidatable
import Verif.Props.InOrder
import Verif.Props.Settle
import Verif.Spec.FullPlan
import Verif.Lemmas.FullPlan
import Verif.Lemmas.LiveFill
import Verif.Lemmas.LiveFullOrder
import Verif.Props.FullOrder
import Verif.Spec.SameLedger
import Verif.Lemmas.LedgerRates
import Verif.Lemmas.OracleFrame
import Verif.Lemmas.LedgerHealth
import Verif.Lemmas.Batch
import Verif.Props.SameLedger
import Verif.Props.Batch
import Verif.Props.NoSlippage
import Verif.Spec.BackstopTerms
import Verif.Lemmas.BackstopLive
import Verif.Props.BackstopTerms
import Verif.Spec.Manage
import Verif.Props.Manage
import Verif.Spec.EmitterTerms
import Verif.Props.EmitterTerms
import Verif.Props.BackstopClaimLive
import Verif.Spec.Gulp
import Verif.Lemmas.GulpLive
import Verif.Props.Gulp
import Verif.Spec.Liquidation
import Verif.Lemmas.LiqTerms
import Verif.Props.Liquidations
import Verif.Spec.BackstopManage
import Verif.Props.BackstopManage
import Verif.Props.Passive
import Verif.Props.Follow
import Verif.Props.FollowBackstop
import Verif.Props.FollowCash
import Verif.Props.Growth
import Verif.Props.Conserve
import Verif.Props.FollowManage
import Verif.Model.Ttl
import Verif.Spec.Ttl
import Verif.Lemmas.Ttl
import Verif.Props.Ttl
import Verif.Spec.Pieces
import Verif.Lemmas.Pieces
import Verif.Props.Pieces
import Verif.Spec.Updates
import Verif.Props.Updates
import Verif.Spec.Gift
import Verif.Props.Gift
import Verif.Spec.Oracle
import Verif.Props.Oracle
import Verif.Spec.Leftover
import Verif.Props.Leftover
import Verif.Spec.OtherPool
import Verif.Props.OtherPool
import Verif.Spec.Group
import Verif.Props.Group
import Verif.Props.Lent
import Verif.Spec.WriteOff
import Verif.Lemmas.WriteOff
import Verif.Props.WriteOff
import Verif.Spec.Signers
import Verif.Props.Signers
import Verif.Spec.BackstopGroup
import Verif.Props.BackstopGroup
import Verif.Spec.AuctionContents
import Verif.Props.AuctionContents
import Verif.Spec.Valuation
import Verif.Props.Valuation
import Verif.Spec.BackstopPar
import Verif.Props.BackstopPar
import Verif.Spec.Margin
import Verif.Props.Margin
import Verif.Props.StatusSettles
import Verif.Props.Committed
import Verif.Spec.Bonus
import Verif.Props.Bonus
import Verif.Spec.Calm
import Verif.Props.Calm
import Verif.Spec.Grace
import Verif.Props.Grace
import Verif.Props.LoanCost
import Verif.Spec.Share
import Verif.Lemmas.Share
import Verif.Props.Share
import Verif.Lemmas.Stream
import Verif.Props.ShareAny
import Verif.Spec.BackstopShare
import Verif.Props.BackstopShare
import Verif.Props.BackstopShareAny
import Verif.Spec.FairShare
import Verif.Props.FairShare
import Verif.Props.BackstopFairShare
import Verif.Props.Findings
import Verif.Props.Claimed
