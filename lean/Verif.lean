import Verif.Model.Set
import Verif.Proofs.Client
import Verif.Proofs.Content
import Verif.Proofs.Insert
import Verif.Proofs.Iter
import Verif.Proofs.Limited
import Verif.Proofs.Lists
import Verif.Proofs.Lookup
import Verif.Proofs.Order
import Verif.Proofs.Remove
import Verif.Proofs.Sample
import Verif.Proofs.Textbook
import Verif.Spec
import Verif.Props.Map
import Verif.Props.Iter
import Verif.Props.Tree
import Verif.Props.Content
import Verif.Props.Capacity
import Verif.Props.Builds
import Verif.Props.History
import Verif.Props.Search
import Verif.Props.Storage
import Verif.Props.Account
import Verif.Props.Set
import Verif.Props.Dtors
import Verif.Proofs.SimpleRemove
import Verif.Proofs.SimpleIter
import Verif.Proofs.SimpleConform
import Verif.Props.Simple
import Verif.Props.Threads
import Verif.Props.Lifetimes
import Verif.Props.Unwind
import Verif.Props.Layout
import Verif.Props.Rebuild
import Verif.Props.Borrows
import Verif.Props.MapBorrows
import Verif.Props.TreeBorrows
import Verif.Props.Work
import Verif.Props.Races
import Verif.Props.Compare
import Verif.Props.NodeEq
import Verif.Props.NodeWrites
import Verif.Props.Boxes
import Verif.Props.SimpleDtors
import Verif.Props.MapDtors
import Verif.Props.Recursion
import Verif.Props.Fmt
import Verif.Props.Programs
import Verif.Props.Bench
import Verif.Props.BenchGen
import Verif.Props.SetDtors
import Verif.Props.SetPrograms
import Verif.Props.BenchOps
import Verif.Props.SimpleSetDtors
import Verif.Props.Average
import Verif.Props.Aging
import Verif.Props.AgingSets
import Verif.Props.Allocs
import Verif.Props.Places
import Verif.Props.Readme
import Verif.Props.Related
import Verif.Props.RandomTests
import Verif.Props.Refusing
import Verif.Props.SetsAsMaps
import Verif.UnitTests
import Verif.Props.RelatedSimple
import Verif.Props.Undo
import Verif.Props.Ancestry
import Verif.Props.AncestryCost
