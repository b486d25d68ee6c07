import Verif.Model.Core
import Verif.Model.Hierarchy
import Verif.Model.Blocking
import Verif.Model.Awaitable
import Verif.Model.Api
import Verif.Spec.Forest
import Verif.Spec.Log
import Verif.Props.Sample
import Verif.Spec.Walk
import Verif.Spec.Values
import Verif.Props.Dispatch
import Verif.Props.Transition
import Verif.Model.Values
import Verif.Spec.History
import Verif.Props.Init
import Verif.Props.History
import Verif.Props.Hierarchy
import Verif.Model.Serde
import Verif.Spec.Simulation
import Verif.Props.Serde
import Verif.Props.Values
import Verif.Spec.Threads
import Verif.Props.Threads
import Verif.Spec.Modes
import Verif.Props.Modes
import Verif.Spec.Polling
import Verif.Props.Polling
import Verif.Props.MacroSample
import Verif.Props.MacroLinks
import Verif.Props.MacroHierarchy
import Verif.Props.MacroConstructors
import Verif.Props.MacroOrder
import Verif.Props.MacroNames
import Verif.Props.MacroLifetimes
import Verif.Props.MacroTypes
import Verif.Props.MacroAccept
import Verif.Props.MacroCycles
import Verif.Props.MacroImpls
import Verif.Model.Macro.Syntax
import Verif.Model.Macro.Analyze
import Verif.Model.Macro.Lifetimes
import Verif.Model.Macro.Lower
import Verif.Model.Macro.Codegen
import Verif.Model.Macro.Rust
import Verif.Spec.Macro
import Verif.Spec.MacroImpls
import Verif.Proofs.Macro.Follows
import Verif.Proofs.Macro.Calls
import Verif.Props.Tracking
import Verif.Props.Invariants
import Verif.Props.Life
import Verif.Props.Examples.Dishwasher
import Verif.Props.Contract
import Verif.Props.Extension
import Verif.Props.MacroExtension
import Verif.Props.Examples.Barrier
import Verif.Props.Examples.CdPlayer
import Verif.Props.Examples.Blinky
import Verif.Props.Examples.Basic
import Verif.Props.Examples.Calculator
import Verif.Model.Macro.Typing
import Verif.Spec.MacroTyping
import Verif.Proofs.Macro.Typing
import Verif.Props.MacroTyping
import Verif.Spec.Inline
import Verif.Proofs.Inline
import Verif.Props.Inline
import Verif.Spec.MacroPermute
import Verif.Proofs.Macro.Permute
import Verif.Props.MacroPermute
import Verif.Spec.Observe
import Verif.Props.Observe
import Verif.Spec.MacroBorrows
import Verif.Props.MacroBorrows
import Verif.Model.Unit
import Verif.Spec.Unit
import Verif.Props.Unit
import Verif.Spec.MacroAsync
import Verif.Proofs.Macro.Async
import Verif.Props.MacroAsync
import Verif.Spec.Tests.Transition
import Verif.Props.Tests.Transition
import Verif.Spec.MacroErrors
import Verif.Proofs.Macro.Errors
import Verif.Props.MacroErrors
import Verif.Model.Tests.ExternalContext
import Verif.Model.Tests.Hooks
import Verif.Model.Tests.Local
import Verif.Model.Tests.Config
import Verif.Spec.Tests.ExternalContext
import Verif.Spec.Tests.Hooks
import Verif.Spec.Tests.Local
import Verif.Proofs.Tests.Flat
import Verif.Props.Tests.ExternalContext
import Verif.Props.Tests.Hooks
import Verif.Props.Tests.Local
import Verif.Props.Tests.Config
import Verif.Model.Debug
import Verif.Spec.Debug
import Verif.Proofs.Debug
import Verif.Props.Debug
import Verif.Model.Macro.Entry
import Verif.Props.MacroEntry
import Verif.Spec.Restore
import Verif.Proofs.Restore
import Verif.Props.Restore
import Verif.Model.Tests.Serde
import Verif.Props.Tests.Serde
import Verif.Model.Drops
import Verif.Spec.Drops
import Verif.Proofs.Drops
import Verif.Props.Drops
import Verif.Spec.Endless
import Verif.Proofs.Endless
import Verif.Props.Endless
import Verif.Props.Untouched
import Verif.Model.Examples.AsyncIo
import Verif.Spec.Examples.AsyncIo
import Verif.Props.Examples.AsyncIo
import Verif.Model.Impure
import Verif.Spec.Impure
import Verif.Props.Impure
import Verif.Proofs.ImpureStatic
import Verif.Props.ImpureStatic
import Verif.Props.Examples.Bench
import Verif.Props.Examples.BlinkyOutput
import Verif.Props.Examples.Generics
import Verif.Props.Examples.CalculatorApp
