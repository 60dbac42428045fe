import Verif.Py
import Verif.Bytes
import Verif.Text
import Verif.Utf8
import Verif.Flt
import Verif.Construct
import Verif.ConstructLemmas
import Verif.StructLemmas
import Verif.GreedyLemmas
import Verif.Structs
import Verif.EventIds
import Verif.Event
import Verif.NestedLemmas
import Verif.EventLemmas
import Verif.KindLemmas
import Verif.KindCanon
import Verif.File
import Verif.Spec
import Verif.FileLemmas
import Verif.RoundTrip
import Verif.Errors
import Verif.Chunks
import Verif.ParseSpec
import Verif.SaveSteps
import Verif.Demo
import Verif.Props.Files
import Verif.Props.Resave
import Verif.Props.Events
import Verif.Props.Structured
import Verif.Props.Crash
import Verif.Tree
import Verif.TreeLemmas
import Verif.TreeOps
import Verif.ViewLemmas
import Verif.TreeSpec
import Verif.Props.Trees
import Verif.Props.Views
import Verif.World
import Verif.Descriptors
import Verif.DescriptorLemmas
import Verif.Props.Descriptors
import Verif.Items
import Verif.Props.Items
import Verif.ProjectModel
import Verif.ProjectLemmas
import Verif.Props.Project
import Verif.Props.ProjectValues
import Verif.FltLemmas
import Verif.Props.Tempo
import Verif.Models
import Verif.ModelsLemmas
import Verif.Props.Patterns
import Verif.Notes
import Verif.Props.Notes
import Verif.Collections
import Verif.CollectionLemmas
import Verif.Props.Arrangements
import Verif.Props.Mixer
import Verif.MixerParams
import Verif.Props.MixerParams
import Verif.Playlist
import Verif.Props.Playlist
import Verif.Rack
import Verif.Props.Rack
import Verif.PropTable
import Verif.Props.PropTable
import Verif.Props.PropSaved
import Verif.ChannelProps
import Verif.Props.Assigned
import Verif.Props.ChannelProps
import Verif.Automation
import Verif.Props.Automation
import Verif.Colors
import Verif.Props.Colors
import Verif.Plugins
import Verif.Props.Plugins
import Verif.Props.Nested
import Verif.Equality
import Verif.Slices
import Verif.Props.PluginClass
import Verif.Props.Equality
import Verif.Props.Slices
import Verif.Times
import Verif.Props.Times
import Verif.Props.Counts
import Verif.Props.Header
import Verif.Props.Stretch
import Verif.Props.ItemsSaved
import Verif.Props.PluginSaved
import Verif.Declared
import Verif.Props.Declared
import Verif.Props.Routes
import Verif.Repr
import Verif.Props.Licensee
import Verif.Props.Repr
import Verif.Props.Sessions
import Verif.Props.Exact
import Verif.Loops
import Verif.Props.Loops
import Verif.Containers
import Verif.Props.Containers
import Verif.Notebook
import Verif.Props.Notebook
import Verif.Props.Versions
import Verif.Tracks
import Verif.Props.Tracks
import Verif.Props.Enums
import Verif.Lookups
import Verif.Props.Lookups
import Verif.Props.Exact2
import Verif.Texts
import Verif.Props.Texts
import Verif.Props.Exact3
import Verif.Props.Exact4
import Verif.Heights
import Verif.Settle
import Verif.SettleKinds
import Verif.Props.Settles
import Verif.Savable
import Verif.Props.Savable
import Verif.Props.Histories
import Verif.Prints
import Verif.Props.Prints
import Verif.Props.Exact5
import Verif.Props.Exact6
import Verif.Props.Exact7
import Verif.Loose
import Verif.Props.Inserts
import Verif.IdNames
import Verif.Props.IdNames
import Verif.Props.Exact8
import Verif.SavedAs
import Verif.Logs
import Verif.Props.Logs
import Verif.EventEq
import Verif.ListEvent
import Verif.StructEvent
import Verif.Props.EventEq
import Verif.Props.ListEvent
import Verif.Props.StructEvent
import Verif.Numbers
import Verif.Props.Numbers
import Verif.Props.Exact9
import Verif.Props.Exact10
import Verif.LayoutSpec
import Verif.Props.Layout
import Verif.Props.Offsets
import Verif.Props.TrackHeights
import Verif.Props.Exact11
import Verif.Warnings
import Verif.Reprs
import Verif.Props.Warnings
import Verif.Props.Exact12
import Verif.Props.Bytewise
import Verif.Props.Reprs
import Verif.Props.Undo
import Verif.Props.Order
import Verif.Props.Damage
import Verif.SortedList
import Verif.SortedTrees
import Verif.Props.Sizes
import Verif.Props.Foreign
import Verif.Process
import Verif.ProcessLemmas
import Verif.ProcessSim
import Verif.Props.SideBySide
import Verif.Threads
import Verif.ThreadLemmas
import Verif.ThreadExec
import Verif.ThreadSim
import Verif.Props.Threads
import Verif.Stale
import Verif.Props.Stale
import Verif.WinPaths
import Verif.Props.WinPaths
import Verif.Queries
import Verif.Props.Queries
import Verif.Props.Bits
import Verif.Props.Splices
import Verif.Props.Looking
import Verif.Props.Exact13
import Verif.Props.Survival
import Verif.Props.Inner
import Verif.Props.Rounds
import Verif.Props.Copies
import Verif.Props.Assembled
import Verif.Props.SlideBit
import Verif.Props.OpenErrors
import Verif.Props.FirstDamage
