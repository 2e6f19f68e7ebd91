import Verif.Core
import Verif.Algo
import Verif.Store
import Verif.Vector
import Verif.SmallVector
import Verif.SVLemmas
import Verif.SVSpec
import Verif.SVSpec2
import Verif.SVSpec3
import Verif.SVSpec4
import Verif.SVSpec5
import Verif.SVSpec6
import Verif.VecEq
import Verif.SeqSpec
import Verif.SVImpl
import Verif.Start
import Verif.Capacity
import Verif.PropVector
import Verif.PropVector2
import Verif.PropSmallVector
import Verif.Two
import Verif.Own
import Verif.OwnMove
import Verif.OwnSpec
import Verif.OwnSwap
import Verif.World
import Verif.WorldVec
import Verif.PropTwo
import Verif.Remove
import Verif.Compare
import Verif.PropVector3
import Verif.FlatSearch
import Verif.FlatSpec
import Verif.Flat
import Verif.FlatOps
import Verif.FlatHint
import Verif.FlatStep
import Verif.FlatExec
import Verif.FlatWorld
import Verif.FlatLook
import Verif.FlatMap
import Verif.PropFlat
import Verif.WorldTrack
import Verif.Static
import Verif.StaticSpec
import Verif.StaticWorld
import Verif.StaticFlat
import Verif.NoAlloc
import Verif.PropStatic
import Verif.UnordSpec
import Verif.Unord
import Verif.UnordErase
import Verif.UnordExec
import Verif.UnordWorld
import Verif.UnordMap
import Verif.UnordLook
import Verif.UnordNoAlloc
import Verif.PropUnord
import Verif.PropUnord2
import Verif.CompactVector
import Verif.CompactSpec
import Verif.CompactSpec2
import Verif.CompactWorld
import Verif.PropCompact
import Verif.Seg
import Verif.SegView
import Verif.SegSim
import Verif.SegIter
import Verif.SegAlgo
import Verif.SegSlots
import Verif.SegVec
import Verif.SegVecSim
import Verif.SegStore
import Verif.SegVecSpec
import Verif.SegVecSpec2
import Verif.SegVecSpec3
import Verif.SegVecSpec4
import Verif.SegVecSpec5
import Verif.SegVecSpec6
import Verif.SegVecSpec7
import Verif.SegWorld
import Verif.PropSegVec
import Verif.PropSegIter
import Verif.Devector
import Verif.DevRow
import Verif.DevShift
import Verif.DevShift2
import Verif.DevInsert
import Verif.DevSpec
import Verif.DevSpec2
import Verif.DevSpec3
import Verif.DevSpec4
import Verif.DevSpec5
import Verif.DevFeed
import Verif.DevSpec6
import Verif.DeqSpec
import Verif.DevOwn
import Verif.DevWorld
import Verif.DevAlias
import Verif.Calm
import Verif.CalmAll
import Verif.CalmWorld
import Verif.PropCalm
import Verif.PropDevector
import Verif.SegDevRow
import Verif.SegDevFeed
import Verif.SegDevSpec
import Verif.SegDevSpec2
import Verif.SegDevSpec3
import Verif.SegDevSpec4
import Verif.SegDevSpec5
import Verif.SegDevSpec6
import Verif.SegDevSpec7
import Verif.SegDevWorld
import Verif.PropSegDev
import Verif.SegCompare
import Verif.Access
import Verif.PropAccess
import Verif.Cost
import Verif.CostDev
import Verif.CostDev2
import Verif.CostDev3
import Verif.CostVec
import Verif.CostSeg
import Verif.PropEnds
import Verif.CostVec2
import Verif.PropWork
import Verif.PropStorage
import Verif.CostDev4
import Verif.CostDev5
import Verif.PropDevCost
import Verif.CostFlat
import Verif.CostUnord
import Verif.CostFlat2
import Verif.PropFlatCost
import Verif.CostStatic
import Verif.CostSeg2
import Verif.PropSegCost
import Verif.CostCompact
import Verif.PropCompactCost
import Verif.KeepVec
import Verif.KeepDev
import Verif.PropKeep
import Verif.CostSegDev
import Verif.CostSegDev2
import Verif.CostSegDev3
import Verif.CostSegDev4
import Verif.CostSegDev5
import Verif.CostSegDev6
import Verif.CostSegDev7
import Verif.PropSegDevCost
import Verif.CostTwo
import Verif.CostTwo2
import Verif.CostTwo3
import Verif.CostTwo4
import Verif.CostTwo5
import Verif.PropTwoCost
import Verif.Keyed
import Verif.PropKeyed
import Verif.SelfMove
import Verif.SelfMove2
import Verif.PropSelfMove
import Verif.Capacity2
import Verif.PropStrong
import Verif.PropFlatInside
import Verif.Present
import Verif.PropPresent
import Verif.Stays
import Verif.StaysWorld
import Verif.StaysSmall
import Verif.PropStays
import Verif.KeepFlat
import Verif.PropFlatKeep
import Verif.PropFlatOrder
