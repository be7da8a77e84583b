import Verif.Spec
import Verif.Model.Key
import Verif.Model.ByteSet
import Verif.Model.ByteMap
import Verif.Model.Act
import Verif.Model.Collection
import Verif.Model.Wrappers
import Verif.Model.Tree
import Verif.Model.Iter
import Verif.Model.IterLoop
import Verif.Model.Unwind
import Verif.Model.Bench
import Verif.Model.Markers
import Verif.Model.MarkerLang
import Verif.Model.CounterPtr
import Verif.Model.Exec
import Verif.Proof.Lawful
import Verif.Proof.MapLemmas
import Verif.Proof.Children
import Verif.Proof.Tree
import Verif.Proof.Collection
import Verif.Proof.SLLemmas
import Verif.Proof.Wrappers
import Verif.Proof.BTreeMap
import Verif.Proof.KeyLaws
import Verif.Proof.ByteSet
import Verif.Proof.ByteMap
import Verif.Proof.Mono
import Verif.Proof.Refine
import Verif.Proof.Iter
import Verif.SpecKey
import Verif.SpecHist
import Verif.Proof.KeyProps
import Verif.Proof.Crate
import Verif.Proof.Hist
import Verif.Props.Keys
import Verif.Props.Tree
import Verif.SpecTree
import Verif.SpecIter
import Verif.Props.Iter
import Verif.Props.TreeDefect
import Verif.Proof.Black
import Verif.Props.Wrappers
import Verif.Model.CollExec
import Verif.SpecColl
import Verif.Proof.CollHist
import Verif.Props.Collections
import Verif.Proof.Phys
import Verif.Proof.PhysTree
import Verif.SpecPanic
import Verif.Proof.NoPanic
import Verif.Props.NoPanic
import Verif.Props.KeyPtr
import Verif.SpecLedger
import Verif.Proof.Ledger
import Verif.Props.Ledger
import Verif.Proof.Entries
import Verif.Props.Entries
import Verif.Proof.IterAll
import Verif.Model.IterRelease
import Verif.SpecRelease
import Verif.Proof.IterRelease
import Verif.Props.IterAll
import Verif.Props.Release
import Verif.SpecLook
import Verif.Proof.Look
import Verif.Props.Look
import Verif.Model.Tick
import Verif.SpecCost
import Verif.Proof.Tick
import Verif.Proof.Cost
import Verif.Proof.Refill
import Verif.Props.Cost
import Verif.Props.Work
import Verif.Model.TickIter
import Verif.SpecIterCost
import Verif.Proof.IterCost
import Verif.Props.IterCost
import Verif.Model.ActIter
import Verif.SpecActIter
import Verif.Proof.ActIter
import Verif.Props.ActIter
import Verif.Model.ActBTree
import Verif.Proof.ActBTree
import Verif.Proof.AuditBTree
import Verif.Proof.HonestBTree
import Verif.Proof.ActBTreeAny
import Verif.Proof.ActBTreeLeaf
import Verif.Props.ActBTree
import Verif.SpecSound
import Verif.Props.Sound
import Verif.Model.ActUnwind
import Verif.SpecActUnwind
import Verif.Proof.ActUnwind
import Verif.Proof.Catch
import Verif.Proof.SoundCatch
import Verif.Props.Caught
import Verif.SpecNumber
import Verif.Proof.Number
import Verif.Props.Number
import Verif.Proof.SoundIter
import Verif.Props.SoundIter
import Verif.Model.ByteList
import Verif.SpecList
import Verif.Proof.ByteList
import Verif.Props.ByteList
import Verif.Model.ArrayOf
import Verif.SpecArray
import Verif.Proof.ArrayOf
import Verif.Props.ArrayOf
import Verif.SpecKeys
import Verif.Proof.AnyList
import Verif.Props.AnyList
import Verif.Proof.Meets
import Verif.Props.RepairedApi
import Verif.Model.ActClone
import Verif.SpecActClone
import Verif.Proof.ActClone
import Verif.Props.ActClone
import Verif.Props.StdMade
import Verif.Model.TickFixed
import Verif.SpecCostFixed
import Verif.Proof.CostFixed
import Verif.Props.CostFixed
import Verif.Model.ByteListLeft
import Verif.SpecListLeft
import Verif.Proof.ListLeft
import Verif.Props.ListLeft
import Verif.Model.ActCollLeft
import Verif.SpecCollLeft
import Verif.Proof.CollLeft
import Verif.Props.CollLeft
import Verif.Proof.Answers
import Verif.Proof.Short
import Verif.Props.Short
import Verif.SpecCheck
import Verif.Proof.Check
import Verif.Props.Check
import Verif.Model.ActList
import Verif.Model.ActCollExec
import Verif.SpecActList
import Verif.Proof.HonestList
import Verif.Proof.ActAnyList
import Verif.Props.ActList
import Verif.SpecTally
import Verif.Proof.Tally
import Verif.Props.Tally
import Verif.SpecListCalls
import Verif.Proof.ListCalls
import Verif.Props.ListCalls
import Verif.SpecRescue
import Verif.Proof.Rescue
import Verif.Props.Rescue
import Verif.SpecCount
import Verif.Proof.Heal
import Verif.Props.Count
import Verif.Model.ActBorrow
import Verif.SpecBorrow
import Verif.Props.Borrow
import Verif.SpecActColl
import Verif.Proof.ActCollRun
import Verif.SpecDescend
import Verif.Proof.Descend
import Verif.Props.Descend
import Verif.SpecOrder
import Verif.Proof.Order
import Verif.Props.Order
import Verif.SpecWalk
import Verif.Proof.Walk
import Verif.Props.Walk
import Verif.SpecOrders
import Verif.Proof.Orders
import Verif.Props.Orders
import Verif.Model.KeyObj
import Verif.SpecKeyObj
import Verif.Proof.KeyObj
import Verif.Proof.KeyObjColl
import Verif.Proof.KeyObjTree
import Verif.Props.KeyObj
import Verif.SpecSame
import Verif.Proof.SameLeaf
import Verif.Proof.SameTree
import Verif.Proof.Same
import Verif.Props.Values
import Verif.SpecRewrite
import Verif.Proof.Rewrite
import Verif.Props.Rewrite
import Verif.SpecSpace
import Verif.Proof.Space
import Verif.Props.Space
import Verif.SpecOpen
import Verif.Proof.Open
import Verif.Proof.OpenColl
import Verif.Props.Open
import Verif.Model.Clone
import Verif.SpecClone
import Verif.Proof.Clone
import Verif.Props.Clone
import Verif.SpecCanon
import Verif.SpecAlike
import Verif.SpecShuffle
import Verif.SpecMarker
import Verif.SpecCap
import Verif.SpecCounter
import Verif.SpecFlat
import Verif.SpecOn
import Verif.SpecLoop
import Verif.SpecUnwind
import Verif.SpecBench
import Verif.SpecAny
import Verif.SpecAct
import Verif.SpecHonest
import Verif.SpecLogged
import Verif.SpecAudit
import Verif.Proof.Canon
import Verif.Proof.Alike
import Verif.Proof.Shuffle
import Verif.Proof.Marker
import Verif.Proof.Cap
import Verif.Proof.Counter
import Verif.Proof.Flat
import Verif.Proof.On
import Verif.Proof.Repaired
import Verif.Proof.IterLoop
import Verif.Proof.Unwind
import Verif.Proof.Bench
import Verif.Proof.AnyOrd
import Verif.Proof.AnyOrdTree
import Verif.Proof.AnyOrdRun
import Verif.Proof.Act
import Verif.Proof.ActArray
import Verif.Proof.ActTree
import Verif.Proof.ActRun
import Verif.Proof.ActLen
import Verif.Proof.Honest
import Verif.Proof.HonestColl
import Verif.Proof.HonestTree
import Verif.Proof.HonestRun
import Verif.Proof.Logged
import Verif.Proof.LoggedColl
import Verif.Proof.LoggedTree
import Verif.Proof.LoggedRun
import Verif.Proof.Audit
import Verif.Proof.AuditColl
import Verif.Proof.AuditTree
import Verif.Proof.SyncColl
import Verif.Proof.SyncTree
import Verif.Proof.AuditRun
import Verif.Props.Canon
import Verif.Model.MaybeBorrowed
import Verif.Props.MaybeBorrowed
import Verif.Props.Flat
import Verif.Props.Nibble
import Verif.Props.Repaired
import Verif.Props.Loop
import Verif.Props.Unwind
import Verif.Props.Bench
import Verif.Props.AnyOrd
import Verif.Props.Act
import Verif.Props.Honest
import Verif.Props.Logged
import Verif.Props.Audit
import Verif.Props.Sync
import Verif.Props.Shuffle
import Verif.Props.Marker
import Verif.Props.Cap
import Verif.Props.Counter
import Verif.Props.Same
import Verif.Proof.Exact
import Verif.Props.Exact
import Verif.Model.TreeFixed
import Verif.Model.Repaired
import Verif.SpecFixed
import Verif.Proof.TreeFixed
import Verif.Props.TreeFixed
import Verif.Conform.Basic
import Verif.Conform.TreeTests
import Verif.Conform.IterTests
import Verif.Conform.LibTests
import Verif.Conform.CollTests
import Verif.Conform.KeyTests
import Verif.Conform.NonVacuous
