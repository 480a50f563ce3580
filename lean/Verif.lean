import Verif.Basic.AMap
import Verif.Basic.Dec
import Verif.Basic.Str
import Verif.Pod.Accumulator
import Verif.Pod.BookingLib
import Verif.Pod.Bounded
import Verif.Pod.Decimal
import Verif.Pod.Reason
import Verif.Pod.ToyLib
import Verif.Pod.Types
import Verif.Server.Convert
import Verif.Server.Health
import Verif.Server.Json
import Verif.Server.JsonText
import Verif.Server.Launcher
import Verif.Server.Response
import Verif.Server.Server
import Verif.Server.ToyExt
import Verif.Server.Wire
import Verif.Clj.App
import Verif.Clj.AutoAccounts
import Verif.Clj.AutoPlugin
import Verif.Clj.Beans
import Verif.Clj.Cell
import Verif.Clj.Data
import Verif.Clj.DateArgs
import Verif.Clj.Filters
import Verif.Clj.Format
import Verif.Clj.Golden
import Verif.Clj.Inventory
import Verif.Clj.Loader
import Verif.Clj.Numbers
import Verif.Clj.Order
import Verif.Clj.Plugins
import Verif.Clj.Pod
import Verif.Clj.Print
import Verif.Clj.Registry
import Verif.Clj.Reports
import Verif.Clj.Resolution
import Verif.Clj.Resolve
import Verif.Clj.Session
import Verif.Clj.Show
import Verif.Clj.Source
import Verif.Clj.Spans
import Verif.Clj.TestPlugins
import Verif.Clj.UserCode
import Verif.Clj.Valid
import Verif.Spec.Attached
import Verif.Spec.Chain
import Verif.Spec.ClientData
import Verif.Spec.ClientReports
import Verif.Spec.Continued
import Verif.Spec.Depth
import Verif.Spec.Examples
import Verif.Spec.Faults
import Verif.Spec.Format
import Verif.Spec.Golden
import Verif.Spec.JsonGrammar
import Verif.Spec.Ledger
import Verif.Spec.Mended
import Verif.Spec.Moves
import Verif.Spec.Opening
import Verif.Spec.Options
import Verif.Spec.Order
import Verif.Spec.Output
import Verif.Spec.Parts
import Verif.Spec.Periods
import Verif.Spec.Places
import Verif.Spec.Plugins
import Verif.Spec.Printed
import Verif.Spec.Rebook
import Verif.Spec.Reference
import Verif.Spec.Relabel
import Verif.Spec.Relaxed
import Verif.Spec.Renaming
import Verif.Spec.Reports
import Verif.Spec.Rescaling
import Verif.Spec.Rewording
import Verif.Spec.Rollup
import Verif.Spec.Selection
import Verif.Spec.Server
import Verif.Spec.Session
import Verif.Spec.Shown
import Verif.Spec.Source
import Verif.Spec.Statement
import Verif.Spec.Swap
import Verif.Spec.TakenOut
import Verif.Spec.Trial
import Verif.Spec.Understood
import Verif.Spec.Unpadded
import Verif.Spec.Valid
import Verif.Spec.Wire
import Verif.Spec.Written
import Verif.Proofs.Accounts
import Verif.Proofs.AttachedLemmas
import Verif.Proofs.AutoLemmas
import Verif.Proofs.BalanceStep
import Verif.Proofs.BeansLemmas
import Verif.Proofs.ChainLemmas
import Verif.Proofs.CheckedLemmas
import Verif.Proofs.CodeLemmas
import Verif.Proofs.ContinuedLemmas
import Verif.Proofs.ContinuedRun
import Verif.Proofs.DataLemmas
import Verif.Proofs.DateLemmas
import Verif.Proofs.DecodeLemmas
import Verif.Proofs.DecodedLemmas
import Verif.Proofs.DepthLemmas
import Verif.Proofs.EncodeLemmas
import Verif.Proofs.Errors
import Verif.Proofs.ExampleLemmas
import Verif.Proofs.Extend
import Verif.Proofs.FaultLemmas
import Verif.Proofs.FormatLemmas
import Verif.Proofs.FrameLemmas
import Verif.Proofs.GoldenLemmas
import Verif.Proofs.Holdings
import Verif.Proofs.Image
import Verif.Proofs.InsertedLemmas
import Verif.Proofs.Invariant
import Verif.Proofs.InventoryLemmas
import Verif.Proofs.JsonTextLemmas
import Verif.Proofs.Life
import Verif.Proofs.LoadLemmas
import Verif.Proofs.MendedLemmas
import Verif.Proofs.MovesLemmas
import Verif.Proofs.OpeningLemmas
import Verif.Proofs.OptionLemmas
import Verif.Proofs.OrdersLemmas
import Verif.Proofs.OutputLemmas
import Verif.Proofs.Pads
import Verif.Proofs.PartsLemmas
import Verif.Proofs.PartsStep
import Verif.Proofs.PassingLemmas
import Verif.Proofs.PlacesLemmas
import Verif.Proofs.PlacesReport
import Verif.Proofs.PlacesRun
import Verif.Proofs.PluginLemmas
import Verif.Proofs.PodLemmas
import Verif.Proofs.PrefixLemmas
import Verif.Proofs.PrintLemmas
import Verif.Proofs.RebookLemmas
import Verif.Proofs.Refine
import Verif.Proofs.RelabelLemmas
import Verif.Proofs.RelaxedLemmas
import Verif.Proofs.Rename
import Verif.Proofs.RenamingLemmas
import Verif.Proofs.RescalingLemmas
import Verif.Proofs.RewordingLemmas
import Verif.Proofs.RollupLemmas
import Verif.Proofs.RoundTrip
import Verif.Proofs.ShallowLemmas
import Verif.Proofs.ShowLemmas
import Verif.Proofs.StatementLemmas
import Verif.Proofs.Step
import Verif.Proofs.SwapLemmas
import Verif.Proofs.SwapOutput
import Verif.Proofs.TakenOutLemmas
import Verif.Proofs.UnderstoodLemmas
import Verif.Proofs.UnpaddedLemmas
import Verif.Proofs.ValidLemmas
import Verif.Proofs.WireLemmas
import Verif.Proofs.WrittenBase
import Verif.Proofs.WrittenLemmas
import Verif.Proofs.WrittenRun
import Verif.Props.C01
import Verif.Props.C02
import Verif.Props.C03
import Verif.Props.C04
import Verif.Props.C05
import Verif.Props.C06
import Verif.Props.C06Exact
import Verif.Props.C07
import Verif.Props.C08
import Verif.Props.C09
import Verif.Props.C09Source
import Verif.Props.C10
import Verif.Props.C100
import Verif.Props.C101
import Verif.Props.C102
import Verif.Props.C103
import Verif.Props.C104
import Verif.Props.C105
import Verif.Props.C106
import Verif.Props.C107
import Verif.Props.C108
import Verif.Props.C109
import Verif.Props.C11
import Verif.Props.C110
import Verif.Props.C111
import Verif.Props.C112
import Verif.Props.C113
import Verif.Props.C114
import Verif.Props.C115
import Verif.Props.C116
import Verif.Props.C117
import Verif.Props.C118
import Verif.Props.C119
import Verif.Props.C11Exact
import Verif.Props.C12
import Verif.Props.C120
import Verif.Props.C121
import Verif.Props.C122
import Verif.Props.C13
import Verif.Props.C14
import Verif.Props.C15
import Verif.Props.C16
import Verif.Props.C17
import Verif.Props.C18
import Verif.Props.C19
import Verif.Props.C20
import Verif.Props.C21
import Verif.Props.C21Exact
import Verif.Props.C22
import Verif.Props.C23
import Verif.Props.C24
import Verif.Props.C25
import Verif.Props.C26
import Verif.Props.C27
import Verif.Props.C28
import Verif.Props.C29
import Verif.Props.C29Units
import Verif.Props.C30
import Verif.Props.C31
import Verif.Props.C32
import Verif.Props.C33
import Verif.Props.C34
import Verif.Props.C35
import Verif.Props.C36
import Verif.Props.C37
import Verif.Props.C38
import Verif.Props.C39
import Verif.Props.C40
import Verif.Props.C41
import Verif.Props.C42
import Verif.Props.C43
import Verif.Props.C44
import Verif.Props.C45
import Verif.Props.C46
import Verif.Props.C47
import Verif.Props.C48
import Verif.Props.C49
import Verif.Props.C50
import Verif.Props.C51
import Verif.Props.C52
import Verif.Props.C53
import Verif.Props.C54
import Verif.Props.C55
import Verif.Props.C56
import Verif.Props.C57
import Verif.Props.C58
import Verif.Props.C59
import Verif.Props.C60
import Verif.Props.C61
import Verif.Props.C62
import Verif.Props.C62Plugins
import Verif.Props.C63
import Verif.Props.C64
import Verif.Props.C65
import Verif.Props.C66
import Verif.Props.C67
import Verif.Props.C68
import Verif.Props.C69
import Verif.Props.C70
import Verif.Props.C71
import Verif.Props.C72
import Verif.Props.C73
import Verif.Props.C74
import Verif.Props.C75
import Verif.Props.C76
import Verif.Props.C77
import Verif.Props.C78
import Verif.Props.C79
import Verif.Props.C80
import Verif.Props.C81
import Verif.Props.C82
import Verif.Props.C83
import Verif.Props.C84
import Verif.Props.C84Source
import Verif.Props.C85
import Verif.Props.C86
import Verif.Props.C87
import Verif.Props.C88
import Verif.Props.C89
import Verif.Props.C90
import Verif.Props.C91
import Verif.Props.C92
import Verif.Props.C92Recorded
import Verif.Props.C93
import Verif.Props.C94
import Verif.Props.C95
import Verif.Props.C96
import Verif.Props.C97
import Verif.Props.C98
import Verif.Props.C99
import Verif.Props.Examples
import Verif.Recorded.AutoAccountsPlugin
import Verif.Recorded.Balance
import Verif.Recorded.CostsAndPrices
import Verif.Recorded.ErrParse
import Verif.Recorded.Full
import Verif.Recorded.Harness
import Verif.Recorded.Lawful
import Verif.Recorded.MultiCurrencyAccountBalance
import Verif.Recorded.Pad
import Verif.Recorded.Plugins
import Verif.Recorded.RobinHood
import Verif.Recorded.SetNarrationPluginWithConfig
import Verif.Recorded.SetNarrationPluginWithoutConfig
import Verif.Recorded.Simple
import Verif.Recorded.Tolerance
import Verif.Recorded.Trading
import Verif.Recorded.UnitTests
