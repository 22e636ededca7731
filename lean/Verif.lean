import Verif.Basic
import Verif.Pattern
import Verif.Matching
import Verif.MatchingSpec
import Verif.MatchingLemmas
import Verif.MatchingPad
import Verif.Props.Matching
import Verif.Value
import Verif.AutomatonDef
import Verif.Layout
import Verif.LayoutSpec
import Verif.Hydrate
import Verif.HydrateSpec
import Verif.HydrateLemmas
import Verif.HydrateCorrect
import Verif.Order
import Verif.HydrateMono
import Verif.HydrateOk
import Verif.HydratePanic
import Verif.HydrateExample
import Verif.Props.Hydrate
import Verif.Dehydrate
import Verif.DehydrateSpec
import Verif.DehydrateLemmas
import Verif.DehydrateFresh
import Verif.DehydrateConform
import Verif.DehydrateClosed
import Verif.DehydrateOut
import Verif.DehydrateMono
import Verif.DehydrateNaming
import Verif.DehydrateGraph
import Verif.AutomatonSpec
import Verif.ErasePatterns
import Verif.DehydrateExample
import Verif.Props.Dehydrate
import Verif.RoundTripSpec
import Verif.RoundTripRep
import Verif.RoundTripLoops
import Verif.RoundTripEntries
import Verif.RoundTripNodes
import Verif.RoundTripRun
import Verif.RoundTripHydrate
import Verif.RoundTripSkip
import Verif.RoundTripBack
import Verif.RoundTripMain
import Verif.RoundTripTotal
import Verif.RoundTripExample
import Verif.Props.RoundTrip
import Verif.Ranges
import Verif.Collections
import Verif.Nfa
import Verif.NfaSpec
import Verif.NfaLemmas
import Verif.NfaDet
import Verif.NfaProduct
import Verif.NfaBuild
import Verif.DetOps
import Verif.DetLemmas
import Verif.DetProduct
import Verif.DetMinimize
import Verif.DetCompress
import Verif.DetPartition
import Verif.Props.Automaton
import Verif.RegExp
import Verif.RegExpSpec
import Verif.RegExpGraph
import Verif.RegExpBuild
import Verif.RegExpLang
import Verif.RegExpSingleton
import Verif.RegExpCharset
import Verif.RegExpPrint
import Verif.RegExpCanonical
import Verif.Props.RegExp
import Verif.Number
import Verif.NumberSpec
import Verif.NumberLemmas
import Verif.Json
import Verif.Cbor
import Verif.JsonSpec
import Verif.JsonLemmas
import Verif.CborLemmas
import Verif.Props.Data
import Verif.TagSpec
import Verif.Props.Tags
import Verif.Syntax
import Verif.SyntaxSpec
import Verif.SyntaxLemmas
import Verif.SyntaxClosed
import Verif.SyntaxSafe
import Verif.SyntaxClean
import Verif.SyntaxDesugar
import Verif.Props.Syntax
import Verif.Props.SyntaxParse
import Verif.SyntaxPrint
import Verif.SyntaxPrintLemmas
import Verif.SyntaxReorder
import Verif.Props.SyntaxPrint
import Verif.Registry
import Verif.RegistryLocal
import Verif.Cli
import Verif.CliLemmas
import Verif.Prelude
import Verif.Props.Cli
import Verif.Rust
import Verif.RustLemmas
import Verif.RustAttrs
import Verif.Props.Rust
import Verif.Derive
import Verif.DeriveSpec
import Verif.DeriveLemmas
import Verif.DeriveSound
import Verif.DeriveRange
import Verif.DeriveTotal
import Verif.DeriveOrder
import Verif.DerivePanic
import Verif.DeriveSer
import Verif.DeriveSim
import Verif.DeriveRound
import Verif.DeriveExample
import Verif.DeriveSerExample
import Verif.DeriveEnumExample
import Verif.Props.Derive
import Verif.SyntaxSerde
import Verif.SyntaxSerdeLemmas
import Verif.RustAll
import Verif.RustNames
import Verif.Props.SyntaxSerde
import Verif.Props.RustAll
import Verif.RenameSpec
import Verif.RenameMatching
import Verif.RenameHydrate
import Verif.Props.Rename
import Verif.DehydrateNames
import Verif.SyntaxConstants
import Verif.Props.Names
import Verif.CompactSpec
import Verif.CompactLemmas
import Verif.Props.Compact
import Verif.CompactCli
import Verif.Props.CompactCli
import Verif.RustPresets
import Verif.Props.RustPresets
import Verif.RustEmit
import Verif.RustEmitSpec
import Verif.RustEmitLemmas
import Verif.Props.RustEmit
import Verif.RustDocSpec
import Verif.RustDocLemmas
import Verif.Props.RustDoc
import Verif.CliFormats
import Verif.CliFormatsLemmas
import Verif.Props.CliFormats
import Verif.CliConform
import Verif.Props.CliConform
import Verif.SyntaxSerdePrint
import Verif.Props.SyntaxSerdePrint
import Verif.ReproduceSpec
import Verif.ReproduceLemmas
import Verif.ReproduceRun
import Verif.Reproduce
import Verif.ReproduceNames
import Verif.ReproduceExample
import Verif.Props.Reproduce
import Verif.HydrateComplete
import Verif.RereadSpec
import Verif.RereadView
import Verif.RereadNames
import Verif.RereadExample
import Verif.Props.Reread
import Verif.StoredSpec
import Verif.Props.Stored
import Verif.NamedGraphSpec
import Verif.NamedGraph
import Verif.NamedGraphLayouts
import Verif.Props.NamedGraph
import Verif.RepoTestsDef
import Verif.RepoTests
import Verif.RepoTestsMore
import Verif.PanicSpec
import Verif.PanicSites
import Verif.PanicSitesMain
import Verif.Props.PanicSites
import Verif.DePanicSites
import Verif.Props.DePanicSites
import Verif.CombineSpec
import Verif.Combine
import Verif.CombineExample
import Verif.Props.Combine
import Verif.KeptSpec
import Verif.KeptTerms
import Verif.Kept
import Verif.KeptExample
import Verif.Props.Kept
import Verif.RustModules
import Verif.Props.RustModules
import Verif.SyntaxPos
import Verif.SyntaxPosSpec
import Verif.SyntaxPosLemmas
import Verif.Props.SyntaxPos
import Verif.ReadBackSpec
import Verif.ReadBack
import Verif.Said
import Verif.Follows
import Verif.Props.ReadBack
import Verif.Props.CliClosed
import Verif.Props.ReadBackCli
import Verif.Props.ReadSets
import Verif.Props.DeriveReadBack
import Verif.ErrorSpec
import Verif.ErrorSites
import Verif.Props.ErrorCauses
import Verif.DeErrorSpec
import Verif.DeErrorSites
import Verif.Props.DeErrorCauses
import Verif.OneTermSpec
import Verif.OneTerm
import Verif.Props.OneTerm
import Verif.DsErrorSpec
import Verif.DsErrorSites
import Verif.Props.DsErrorCauses
import Verif.IrrelevantSpec
import Verif.Irrelevant
import Verif.IrrelevantDerived
import Verif.Props.CombineAny
import Verif.Props.Irrelevant
import Verif.HydrateOrder
import Verif.Props.HydrateOrder
import Verif.DeriveDatasetOrder
import Verif.Props.DeriveDatasetOrder
import Verif.DeriveRename
import Verif.Props.DeriveRename
import Verif.Display
import Verif.DisplayLemmas
import Verif.Props.Display
import Verif.Messages
import Verif.Props.Messages
import Verif.VariantOrderSpec
import Verif.VariantOrder
import Verif.VariantOrderDe
import Verif.VariantOrderDerived
import Verif.VariantOrderApart
import Verif.Props.VariantOrder
import Verif.RelabelSpec
import Verif.Relabel
import Verif.RelabelDe
import Verif.Props.Relabel
import Verif.RelaxSpec
import Verif.Relax
import Verif.RelaxDe
import Verif.Props.Relax
import Verif.ExtendSpec
import Verif.Extend
import Verif.ExtendDe
import Verif.ExtendSer
import Verif.Props.Extend
import Verif.MoreVariantsSpec
import Verif.MoreVariants
import Verif.MoreVariantsDe
import Verif.Props.MoreVariants
import Verif.RelabelDerived
import Verif.Props.RelabelDerived
import Verif.SingleSpec
import Verif.Single
import Verif.Props.Single
import Verif.RenameKeysSpec
import Verif.RenameKeys
import Verif.Props.RenameKeys
