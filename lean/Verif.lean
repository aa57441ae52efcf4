import Verif.Base
import Verif.Num
import Verif.DecStr
import Verif.Types
import Verif.Token
import Verif.Pair
import Verif.Factory
import Verif.Router
import Verif.Chain
import Verif.Spec.BigNum
import Verif.Lemmas.NumL
import Verif.Lemmas.DecStrL
import Verif.Lemmas.DecStrL2
import Verif.Lemmas.SwapForm
import Verif.Lemmas.Pricing
import Verif.Lemmas.PairInv
import Verif.Lemmas.GuardL
import Verif.Lemmas.ChainL
import Verif.Lemmas.Demo
import Verif.Props.BigNum
import Verif.Props.Pricing
import Verif.Props.Guards
import Verif.Props.Liquidity
import Verif.Spec.Ledger
import Verif.Lemmas.RunL
import Verif.Lemmas.TokenL
import Verif.Lemmas.TokenInv
import Verif.Lemmas.ActorL
import Verif.Lemmas.DemoRun
import Verif.Props.Tokens
import Verif.Lemmas.Sane
import Verif.Lemmas.FactoryL
import Verif.Lemmas.OccursL
import Verif.Lemmas.TraceL
import Verif.Props.Admin
import Verif.Spec.Pool
import Verif.Lemmas.PoolL
import Verif.Lemmas.PoolRun
import Verif.Lemmas.PoolMain
import Verif.Lemmas.PoolHist
import Verif.Props.Pool
import Verif.Lemmas.RegistryL
import Verif.Props.Registry
import Verif.Lemmas.XferL
import Verif.Lemmas.RouterL
import Verif.Props.Router
import Verif.Lemmas.CreateL
import Verif.Props.Create
import Verif.Props.Swap
import Verif.Spec.Create
import Verif.Lemmas.CreateRunL
import Verif.Props.Created
import Verif.Lemmas.LiqL
import Verif.Props.LiquidityTx
import Verif.Props.Live
import Verif.Lemmas.LiveL
import Verif.Props.Impact
import Verif.Lemmas.RouteL
import Verif.Props.Route
import Verif.Lemmas.StillL
import Verif.Spec.Locked
import Verif.Lemmas.LockedL
import Verif.Lemmas.RouterCoinsL
import Verif.Props.Locked
import Verif.Props.Sweep
import Verif.Spec.Cw20
import Verif.Props.Cw20
import Verif.Spec.Desk
import Verif.Lemmas.DeskL
import Verif.Props.Desk
import Verif.Lemmas.CreateLiveL
import Verif.Props.CreateIff
import Verif.Spec.Quote
import Verif.Props.Queries
import Verif.Spec.Deposit
import Verif.Props.DepositIff
import Verif.Props.Undo
import Verif.Props.Fees
import Verif.Props.Admins
import Verif.Log
import Verif.Spec.Report
import Verif.Lemmas.LogL
import Verif.Lemmas.SettleL
import Verif.Props.Events
import Verif.Text
import Verif.Spec.Text
import Verif.Lemmas.TextL
import Verif.Props.Text
import Verif.Props.Split
import Verif.Props.Cycle
import Verif.Conform.Units
import Verif.Conform.Integration
import Verif.Props.Agent
import Verif.Props.Paging
import Verif.Props.Exact
import Verif.Props.ExactTx
import Verif.Props.Witness
import Verif.Props.Deploy
import Verif.Props.Halt
import Verif.Props.Indexer
import Verif.Spec.Steps
import Verif.Props.Steps
import Verif.Listing
import Verif.Spec.Listing
import Verif.Props.Listing
import Verif.Spec.Wire
import Verif.Props.Wire
import Verif.Props.RegistryKeys
import Verif.Json
import Verif.Codec
import Verif.Lemmas.JsonL
import Verif.Lemmas.CodecL
import Verif.Lemmas.CodecL2
import Verif.Lemmas.CodecL3
import Verif.Lemmas.CodecL4
import Verif.Lemmas.CodecL5
import Verif.Spec.Codec
import Verif.Props.Codec
import Verif.QueryCodec
import Verif.Spec.QueryCodec
import Verif.Lemmas.QueryCodecL
import Verif.Lemmas.QueryCodecL2
import Verif.Lemmas.QueryCodecL3
import Verif.Lemmas.QueryCodecL4
import Verif.ByteChain
import Verif.Lemmas.ByteChainL
import Verif.Props.ByteChain
import Verif.Conform.Texts
import Verif.Props.Limits
import Verif.Props.Provider
import Verif.Lemmas.OwnedL
import Verif.Props.Owned
import Verif.Reply
import Verif.Store
import Verif.StoreChain
import Verif.Lemmas.StoreL
import Verif.Lemmas.StoreTokenL
import Verif.Lemmas.StoreTokenL2
import Verif.Lemmas.StoreFactL
import Verif.Lemmas.StoreChainL
import Verif.Spec.Store
import Verif.Lemmas.StoreTextL
import Verif.Lemmas.StoreLaysL
import Verif.Props.Store
import Verif.Spec.JsonText
import Verif.Spec.Shape
import Verif.Lemmas.JsonTextL
import Verif.Lemmas.ShapeL
import Verif.Lemmas.ShapeMsgL
import Verif.Props.Grammar
import Verif.Props.Monotone
import Verif.Props.Equal
import Verif.Lemmas.ReplyL
import Verif.Spec.Reply
import Verif.Props.Reply
import Verif.Utf8
import Verif.Spec.Utf8
import Verif.Lemmas.Utf8L
import Verif.Props.Utf8
import Verif.Props.Leak
import Verif.Props.Replay
import Verif.Props.Gate
import Verif.Props.Price
import Verif.Props.Disk
import Verif.Catch
import Verif.Lemmas.CatchL
import Verif.Props.Catch
import Verif.Spec.Books
import Verif.Props.Books
import Verif.Wide
import Verif.Props.Wide
import Verif.Spec.Close
import Verif.Lemmas.CloseL
import Verif.Props.Close
import Verif.Props.Hostile
import Verif.Props.Inflate
import Verif.Props.Listed
import Verif.TokenLog
import Verif.Spec.TokenIndexer
import Verif.Props.TokenIndexer
import Verif.Props.Clock
import Verif.CatchLog
import Verif.Lemmas.CatchLogL
import Verif.Props.CatchLog
import Verif.Props.Schema
import Verif.Props.Commute
import Verif.Props.Power
import Verif.Props.Restart
import Verif.Props.Say
import Verif.Props.Jit
import Verif.Props.Twin
import Verif.Lemmas.LostL
import Verif.Props.Lost
import Verif.Lemmas.ApproveL
import Verif.Props.Approve
import Verif.Props.Sleep
import Verif.Props.Band
import Verif.Props.Moment
import Verif.Props.Exit
import Verif.Props.Serve
import Verif.Props.ServeRoute
import Verif.Props.Again
import Verif.Props.Exactly
import Verif.Props.ZeroSum
import Verif.Props.Best
import Verif.Props.Slice
import Verif.Props.Weigh
import Verif.Props.Earn
import Verif.Props.Queue
import Verif.Props.Coins
import Verif.Props.Merge
import Verif.Props.Lens
import Verif.Props.Shortfall
import Verif.Props.Refuge
import Verif.Props.Savings
import Verif.Props.Sandwich
import Verif.Props.Farewell
import Verif.Props.Shield
