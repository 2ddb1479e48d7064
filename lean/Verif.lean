import Verif.Model.Instructions
import Verif.Spec
import Verif.SpecExact
import Verif.SpecTally
import Verif.SpecEvents
import Verif.Lemmas.Basic
import Verif.Lemmas.Merkle
import Verif.Lemmas.Claim
import Verif.Lemmas.Maps
import Verif.Lemmas.Token
import Verif.Lemmas.Inversion
import Verif.Lemmas.Core
import Verif.Lemmas.Inv
import Verif.Lemmas.PInv
import Verif.Lemmas.Init
import Verif.Lemmas.Loops
import Verif.Lemmas.WInv
import Verif.Lemmas.Preserve
import Verif.Lemmas.Reach
import Verif.Lemmas.Sums
import Verif.Lemmas.Step
import Verif.Lemmas.Evolve
import Verif.Lemmas.Origin
import Verif.Examples
import Verif.Props.DepositFee
import Verif.Props.FixedPrice
import Verif.Props.TransferFee
import Verif.Props.HookAccounts
import Verif.Props.Merkle
import Verif.Props.Ledger
import Verif.Props.Lifecycle
import Verif.Props.Creation
import Verif.Lemmas.Moves
import Verif.Lemmas.After
import Verif.Lemmas.Exact
import Verif.Props.Deposit
import Verif.Props.Claims
import Verif.Props.Price
import Verif.Props.Refunds
import Verif.Lemmas.End
import Verif.Lemmas.Conserve
import Verif.Lemmas.Flow
import Verif.Lemmas.Admin
import Verif.Lemmas.NoPanic
import Verif.Lemmas.Tally
import Verif.Props.Closing
import Verif.Props.Budget
import Verif.Props.Creator
import Verif.Props.Access
import Verif.Props.Admin
import Verif.Props.Panic
import Verif.Props.Tally
import Verif.Props.Independence
import Verif.Props.Liveness
import Verif.Props.Events
import Verif.Props.Fairness
import Verif.Model.Lamports
import Verif.Lemmas.Lamports
import Verif.Props.Lamports
import Verif.Model.Transactions
import Verif.Props.Transactions
import Verif.Model.Codec
import Verif.Model.Layout
import Verif.Lemmas.Codec
import Verif.Lemmas.Layout
import Verif.Lemmas.Fits
import Verif.Props.Layout
import Verif.Model.Seeds
import Verif.Props.Seeds
import Verif.Model.Data
import Verif.Lemmas.Decoding
import Verif.Props.Data
import Verif.Model.Entry
import Verif.SpecEntry
import Verif.Lemmas.Frame
import Verif.Props.Entry
import Verif.SpecWindup
import Verif.Props.Windup
import Verif.Props.Stranded
import Verif.SpecCreate
import Verif.Lemmas.Accept
import Verif.Lemmas.AcceptInit
import Verif.Props.Accepting
import Verif.SpecMachine
import Verif.Lemmas.Machine
import Verif.Lemmas.MachineAdmin
import Verif.Lemmas.MachineSale
import Verif.Lemmas.MachineAfter
import Verif.Lemmas.MachineInit
import Verif.Props.Machine
import Verif.SpecErrors
import Verif.Lemmas.Errors
import Verif.Lemmas.ErrorsAdmin
import Verif.Lemmas.ErrorsSale
import Verif.Lemmas.ErrorsAfter
import Verif.Lemmas.ErrorsInit
import Verif.Props.Errors
import Verif.Model.Extensions
import Verif.SpecExtensions
import Verif.Props.Extensions
import Verif.SpecReceipts
import Verif.Props.Receipts
import Verif.Lemmas.Utf8
import Verif.SpecBytes
import Verif.Lemmas.Offsets
import Verif.Props.Offsets
import Verif.Model.Sha256
import Verif.Model.Selectors
import Verif.SpecSelectors
import Verif.Props.Selectors
import Verif.Model.EventData
import Verif.SpecEventBytes
import Verif.Props.EventData
import Verif.Model.Pda
import Verif.SpecCurve
import Verif.Lemmas.Ed25519
import Verif.Props.Pda
import Verif.Model.MerkleTool
import Verif.Lemmas.MerkleAny
import Verif.Props.MerkleTool
import Verif.Model.Process
import Verif.SpecBank
import Verif.Props.Process
import Verif.Model.Proptests
import Verif.Props.Proptests
import Verif.Replay.Base
import Verif.Replay.Initialize
import Verif.Replay.Deposit
import Verif.Replay.Claim
import Verif.Replay.Creator
import Verif.Replay.Withdraw
import Verif.Replay.Misc
import Verif.Replay.Escrow
import Verif.Replay.Unsold
import Verif.Replay.Audit
import Verif.Replay.Unit
import Verif.Model.Epochs
import Verif.SpecEpochs
import Verif.Props.Epochs
import Verif.SpecShare
import Verif.Props.Share
import Verif.Props.Audits
import Verif.Model.Hooks
import Verif.SpecHooks
import Verif.Lemmas.Hooks
import Verif.Props.Hooks
import Verif.Props.Readme
import Verif.Model.TokenData
import Verif.SpecTokenData
import Verif.Lemmas.TokenData
import Verif.Props.TokenData
import Verif.SpecDust
import Verif.Props.Dust
import Verif.Model.RentCheck
import Verif.SpecRent
import Verif.Props.RentCheck
import Verif.SpecMore
import Verif.Props.More
import Verif.SpecDonate
import Verif.Lemmas.Donate
import Verif.Props.Donate
import Verif.SpecLife
import Verif.Lemmas.Life
import Verif.Props.Life
import Verif.SpecOrder
import Verif.Lemmas.Order
import Verif.Props.Order
import Verif.SpecRename
import Verif.Lemmas.Rename
import Verif.Props.Rename
import Verif.Props.Horizon
import Verif.Props.ClockBack
import Verif.Props.ClockDrift
import Verif.SpecSettle
import Verif.Lemmas.Settle
import Verif.Props.Settle
import Verif.Props.Squat
import Verif.Props.ListLimit
import Verif.SpecDelay
import Verif.Lemmas.Delay
import Verif.Props.Delay
import Verif.SpecInsiders
import Verif.Props.Insiders
import Verif.SpecUndo
import Verif.Props.Undo
import Verif.SpecLists
import Verif.Props.Lists
import Verif.Props.Door
import Verif.SpecPledge
import Verif.Props.Pledge
import Verif.Props.WorstPrice
import Verif.SpecBooks
import Verif.Props.Books
import Verif.SpecWire
import Verif.Props.Capstone
import Verif.SpecCollision
import Verif.Props.Collision
import Verif.SpecIndexer
import Verif.Props.Indexer
import Verif.SpecNumbering
import Verif.Props.Numbering
import Verif.SpecStatement
import Verif.Props.Statement
import Verif.Props.Lost
import Verif.SpecTerms
import Verif.Props.Terms
import Verif.Props.Modes
import Verif.Props.SinceEnd
import Verif.SpecRate
import Verif.Props.Rate
import Verif.SpecTold
import Verif.Props.Told
import Verif.Props.LogBytes
