import Verif.Model.Basic
import Verif.Model.Json
import Verif.Model.Live
import Verif.Model.LiveMachine
import Verif.Model.Load
import Verif.Model.Locks
import Verif.Model.Machine
import Verif.Model.Map
import Verif.Model.Parse
import Verif.Model.Path
import Verif.Model.Prog
import Verif.Model.Resolve
import Verif.Model.Ser
import Verif.Model.Tsconfig
import Verif.Model.Types
import Verif.Proofs.Absolute
import Verif.Proofs.Again
import Verif.Proofs.Appended
import Verif.Proofs.Base
import Verif.Proofs.Below
import Verif.Proofs.Blame
import Verif.Proofs.Browser
import Verif.Proofs.BrowserMap
import Verif.Proofs.BrowserOff
import Verif.Proofs.Bytes
import Verif.Proofs.Changes
import Verif.Proofs.Clear
import Verif.Proofs.Cond
import Verif.Proofs.Congr
import Verif.Proofs.Contain
import Verif.Proofs.Cost
import Verif.Proofs.CostBare
import Verif.Proofs.CostPath
import Verif.Proofs.Current
import Verif.Proofs.Debug
import Verif.Proofs.Dirs
import Verif.Proofs.EndSep
import Verif.Proofs.Errors
import Verif.Proofs.Faithful
import Verif.Proofs.Fields
import Verif.Proofs.FileAdded
import Verif.Proofs.Fuel
import Verif.Proofs.Halts
import Verif.Proofs.HaltsCall
import Verif.Proofs.Heal
import Verif.Proofs.History
import Verif.Proofs.Ignored
import Verif.Proofs.Imports
import Verif.Proofs.Install
import Verif.Proofs.Keys
import Verif.Proofs.Kind
import Verif.Proofs.Lawful
import Verif.Proofs.LinkFs
import Verif.Proofs.Live
import Verif.Proofs.LiveHistory
import Verif.Proofs.LiveLoad
import Verif.Proofs.LiveMachine
import Verif.Proofs.LiveSame
import Verif.Proofs.LiveSat
import Verif.Proofs.LiveSpin
import Verif.Proofs.LiveSuccess
import Verif.Proofs.LoadFuel
import Verif.Proofs.Loader
import Verif.Proofs.LockDisc
import Verif.Proofs.Locks
import Verif.Proofs.Looks
import Verif.Proofs.Machine
import Verif.Proofs.MapRead
import Verif.Proofs.Maps
import Verif.Proofs.Marks
import Verif.Proofs.Messages
import Verif.Proofs.Modules
import Verif.Proofs.Moved
import Verif.Proofs.MovedDocs
import Verif.Proofs.MovedPath
import Verif.Proofs.MovedTree
import Verif.Proofs.Named
import Verif.Proofs.Nearest
import Verif.Proofs.NewFiles
import Verif.Proofs.NoCycle
import Verif.Proofs.NodeMaps
import Verif.Proofs.Normalize
import Verif.Proofs.Options
import Verif.Proofs.OtherPackages
import Verif.Proofs.Packages
import Verif.Proofs.Paired
import Verif.Proofs.Panics
import Verif.Proofs.Parse
import Verif.Proofs.Path
import Verif.Proofs.Query
import Verif.Proofs.Reads
import Verif.Proofs.Rel
import Verif.Proofs.Remarked
import Verif.Proofs.Repeated
import Verif.Proofs.Require
import Verif.Proofs.RequireHash
import Verif.Proofs.RequireSelf
import Verif.Proofs.Reread
import Verif.Proofs.SameFields
import Verif.Proofs.Sat
import Verif.Proofs.SelfRef
import Verif.Proofs.SideEffects
import Verif.Proofs.Sim
import Verif.Proofs.Stored
import Verif.Proofs.Success
import Verif.Proofs.System
import Verif.Proofs.Termination
import Verif.Proofs.Transparent
import Verif.Proofs.TreeFs
import Verif.Proofs.TreeNames
import Verif.Proofs.TreeVals
import Verif.Proofs.Trie
import Verif.Proofs.Tsconfig
import Verif.Proofs.TypeScript
import Verif.Proofs.Unused
import Verif.Proofs.Watched
import Verif.Proofs.WatchedBare
import Verif.Proofs.Yields
import Verif.Props.Absolute
import Verif.Props.Again
import Verif.Props.Amid
import Verif.Props.Appended
import Verif.Props.Base
import Verif.Props.Below
import Verif.Props.BelowAmid
import Verif.Props.Browser
import Verif.Props.Caches
import Verif.Props.Changes
import Verif.Props.Cost
import Verif.Props.CostBare
import Verif.Props.CostPath
import Verif.Props.Current
import Verif.Props.Debug
import Verif.Props.Enclosed
import Verif.Props.EndSep
import Verif.Props.Findings
import Verif.Props.Halts
import Verif.Props.Heal
import Verif.Props.Ignored
import Verif.Props.Imports
import Verif.Props.Join
import Verif.Props.Kept
import Verif.Props.Links
import Verif.Props.Live
import Verif.Props.Locks
import Verif.Props.Looks
import Verif.Props.MapRead
import Verif.Props.Maps
import Verif.Props.Marks
import Verif.Props.Messages
import Verif.Props.Modules
import Verif.Props.Moved
import Verif.Props.Named
import Verif.Props.NewFiles
import Verif.Props.Node
import Verif.Props.Normalize
import Verif.Props.OnePath
import Verif.Props.Options
import Verif.Props.OtherAmid
import Verif.Props.OtherByPath
import Verif.Props.OtherPackages
import Verif.Props.Packages
import Verif.Props.Panics
import Verif.Props.Reads
import Verif.Props.Remarked
import Verif.Props.Repeated
import Verif.Props.Request
import Verif.Props.Require
import Verif.Props.RequireHash
import Verif.Props.RequireSelf
import Verif.Props.Result
import Verif.Props.SameFields
import Verif.Props.SelfRef
import Verif.Props.SideEffects
import Verif.Props.Stale
import Verif.Props.Stored
import Verif.Props.Termination
import Verif.Props.Trees
import Verif.Props.Tsconfig
import Verif.Props.TypeScript
import Verif.Props.Unset
import Verif.Props.Unused
import Verif.Props.Watched
import Verif.Props.WatchedBare
import Verif.Spec.Absolute
import Verif.Spec.Again
import Verif.Spec.Amid
import Verif.Spec.Appended
import Verif.Spec.Base
import Verif.Spec.Below
import Verif.Spec.Browser
import Verif.Spec.BrowserMap
import Verif.Spec.Changes
import Verif.Spec.Clear
import Verif.Spec.Cond
import Verif.Spec.Cost
import Verif.Spec.CostBare
import Verif.Spec.Current
import Verif.Spec.Debug
import Verif.Spec.Dirs
import Verif.Spec.Enclosed
import Verif.Spec.EndSep
import Verif.Spec.Examples
import Verif.Spec.Exec
import Verif.Spec.Fields
import Verif.Spec.Halts
import Verif.Spec.Heal
import Verif.Spec.Hyps
import Verif.Spec.Ignored
import Verif.Spec.Imports
import Verif.Spec.Install
import Verif.Spec.LinkFs
import Verif.Spec.Live
import Verif.Spec.Locks
import Verif.Spec.Looks
import Verif.Spec.MapRead
import Verif.Spec.Maps
import Verif.Spec.Marks
import Verif.Spec.Messages
import Verif.Spec.Modules
import Verif.Spec.Moved
import Verif.Spec.NewFiles
import Verif.Spec.Node
import Verif.Spec.Options
import Verif.Spec.OtherPackages
import Verif.Spec.Packages
import Verif.Spec.Panics
import Verif.Spec.Path
import Verif.Spec.Reads
import Verif.Spec.Remarked
import Verif.Spec.Repeated
import Verif.Spec.Request
import Verif.Spec.Require
import Verif.Spec.SeesFiles
import Verif.Spec.SelfRef
import Verif.Spec.SideEffects
import Verif.Spec.Static
import Verif.Spec.Stored
import Verif.Spec.Termination
import Verif.Spec.TreeFs
import Verif.Spec.Trees
import Verif.Spec.Tsconfig
import Verif.Spec.TypeScript
import Verif.Spec.Unused
import Verif.Spec.Watched
import Verif.Spec.WatchedBare
import Verif.Test.CaseTests
import Verif.Test.MapTests
