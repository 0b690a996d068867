import Verif.Model.Basic
import Verif.Model.Input
import Verif.Model.Platform
import Verif.Model.Classes
import Verif.Model.Methods
import Verif.Model.Slots
import Verif.Model.Select
import Verif.Model.Dispatch
import Verif.Model.Global
import Verif.Model.Call
import Verif.Spec
import Verif.Proof.ListLemmas
import Verif.Proof.Classes
import Verif.Proof.Methods
import Verif.Proof.Slots
import Verif.Proof.Select
import Verif.Proof.Groups
import Verif.Proof.MoreSpecific
import Verif.Proof.Cells
import Verif.Proof.Tables
import Verif.Proof.Compile
import Verif.Proof.Global
import Verif.Proof.Call
import Verif.SpecCall
import Verif.Proof.Elim
import Verif.Proof.SafeOrder
import Verif.Proof.Order
import Verif.Proof.Refine
import Verif.Proof.Outcome
import Verif.Examples.Check
import Verif.Examples.Programs
import Verif.Props.Dispatch
import Verif.Proof.Gaps
import Verif.Props.Gaps
import Verif.Proof.RetElim
import Verif.SpecAccept
import Verif.Proof.Accept
import Verif.Props.Accept
import Verif.SpecChange
import Verif.Proof.Covariant
import Verif.Proof.Words
import Verif.Proof.Congr
import Verif.Proof.Reorder
import Verif.Proof.Abstract
import Verif.Props.Covariant
import Verif.Props.Independence
import Verif.SpecTables
import Verif.Props.Tables
import Verif.SpecNext
import Verif.Proof.Next
import Verif.Props.Next
import Verif.Model.StaticList
import Verif.SpecList
import Verif.Proof.StaticList
import Verif.Props.Lists
import Verif.Model.Hash
import Verif.Proof.Hash
import Verif.Props.Hash
import Verif.Model.Vptr
import Verif.Proof.Vptr
import Verif.Model.Registry
import Verif.SpecRegistry
import Verif.Proof.Registry
import Verif.Proof.Gen
import Verif.Proof.Missing
import Verif.Proof.History
import Verif.Examples.Registries
import Verif.Props.Vptr
import Verif.Props.Registry
import Verif.Props.Resources
import Verif.Model.World
import Verif.SpecWorld
import Verif.Proof.World
import Verif.Props.World
import Verif.Model.Policies
import Verif.Props.Policies
import Verif.Model.VirtualPtr
import Verif.SpecPtr
import Verif.Proof.VirtualPtr
import Verif.Props.VirtualPtr
import Verif.Model.Inplace
import Verif.SpecInplace
import Verif.Proof.Inplace
import Verif.Props.Inplace
import Verif.Model.ErrorHandler
import Verif.SpecError
import Verif.Proof.ErrorHandler
import Verif.Props.ErrorHandler
import Verif.Model.Registrars
import Verif.SpecRegistrars
import Verif.Proof.Registrars
import Verif.Props.Registrars
import Verif.Model.Subobjects
import Verif.Model.Thunk
import Verif.SpecThunk
import Verif.Proof.Subobjects
import Verif.Proof.Thunk
import Verif.Props.Thunk
import Verif.Model.UseClasses
import Verif.SpecCpp
import Verif.Proof.UseClasses
import Verif.Props.UseClasses
import Verif.Props.Params
import Verif.Props.Forms
import Verif.SpecForms
import Verif.Model.Returns
import Verif.SpecReturns
import Verif.Props.Returns
import Verif.Model.Source
import Verif.SpecSource
import Verif.Proof.Source
import Verif.Props.Source
import Verif.Model.Bodies
import Verif.SpecBodies
import Verif.Proof.Bodies
import Verif.Proof.Execute
import Verif.Props.Bodies
import Verif.Model.Macros
import Verif.Model.MacroProgram
import Verif.SpecMacros
import Verif.SpecMacroProgram
import Verif.Props.Macros
import Verif.Props.MacroProgram
import Verif.Props.Ownership
import Verif.Props.Output
import Verif.Model.Conversions
import Verif.SpecConversions
import Verif.Proof.Conversions
import Verif.Props.Conversions
import Verif.Model.Deduction
import Verif.SpecDeduction
import Verif.Props.Deduction
import Verif.Model.Statements
import Verif.SpecStatements
import Verif.Proof.Statements
import Verif.Props.Statements
import Verif.Model.Casts
import Verif.SpecCasts
import Verif.Proof.Casts
import Verif.Props.Casts
import Verif.Model.InplaceCopy
import Verif.SpecInplaceCopy
import Verif.Proof.InplaceCopy
import Verif.Props.InplaceCopy
import Verif.Model.Compare
import Verif.SpecCompare
import Verif.Proof.Compare
import Verif.Props.Compare
import Verif.Model.Bare
import Verif.SpecBare
import Verif.Proof.Bare
import Verif.Props.Bare
import Verif.Model.Odr
import Verif.SpecOdr
import Verif.Proof.Odr
import Verif.Props.Odr
import Verif.Model.Trace
import Verif.SpecTrace
import Verif.Proof.Trace
import Verif.Proof.TraceTables
import Verif.Proof.TraceInit
import Verif.Proof.TraceSound
import Verif.Proof.TraceNames
import Verif.Proof.TraceAll
import Verif.Props.Trace
import Verif.Model.Options
import Verif.SpecOptions
import Verif.Props.Options
import Verif.Model.Lookup
import Verif.SpecLookup
import Verif.Proof.Lookup
import Verif.Props.Lookup
import Verif.Model.HashWord
import Verif.Proof.HashWord
import Verif.Props.HashWord
import Verif.Model.Cost
import Verif.SpecCost
import Verif.Proof.Cost
import Verif.Props.Cost
import Verif.Model.Memory
import Verif.Proof.Memory
import Verif.Proof.MemorySame
import Verif.Props.Memory
import Verif.Model.Threads
import Verif.SpecThreads
import Verif.Proof.Threads
import Verif.Props.Threads
import Verif.Proof.Records
import Verif.Props.Records
import Verif.Model.Sizes
import Verif.Proof.Numbers
import Verif.Proof.Sizes
import Verif.Props.Sizes
import Verif.Model.Messages
import Verif.SpecMessages
import Verif.Props.Messages
import Verif.Model.Corrected
import Verif.Proof.Corrected
import Verif.Props.Corrected
import Verif.SpecFit
import Verif.Props.Fit
import Verif.Model.Loading
import Verif.SpecLoading
import Verif.Proof.Loading
import Verif.Props.Loading
import Verif.SpecNull
import Verif.Props.Null
import Verif.Model.Locks
import Verif.SpecLocks
import Verif.Proof.Locks
import Verif.Props.Locks
import Verif.Model.ErrorTypes
import Verif.SpecErrorTypes
import Verif.Props.ErrorTypes
import Verif.Model.N2216
import Verif.Proof.N2216
import Verif.Props.N2216
import Verif.Model.N2216All
import Verif.Proof.N2216All
import Verif.Props.N2216All
import Verif.Model.Names
import Verif.Proof.Names
import Verif.Props.Names
import Verif.Model.Detect
import Verif.Proof.Detect
import Verif.Props.Detect
import Verif.Model.Rollback
import Verif.Proof.Rollback
import Verif.Props.Rollback
import Verif.Props.Unready
import Verif.Proof.Stale
import Verif.Props.Stale
import Verif.Props.Follow
import Verif.Props.Collide
import Verif.Model.Guarantee
import Verif.Props.Guarantee
