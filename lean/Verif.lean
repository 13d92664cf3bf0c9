import Verif.Base
import Verif.Lemmas.Altrep
import Verif.Lemmas.Array
import Verif.Lemmas.Assign
import Verif.Lemmas.Base
import Verif.Lemmas.BindUnique
import Verif.Lemmas.Cast
import Verif.Lemmas.Cbind
import Verif.Lemmas.Chop
import Verif.Lemmas.ChopTable
import Verif.Lemmas.Combine
import Verif.Lemmas.Compare
import Verif.Lemmas.DfList
import Verif.Lemmas.DfType
import Verif.Lemmas.Dict
import Verif.Lemmas.DictAny
import Verif.Lemmas.Dictionary
import Verif.Lemmas.Equal
import Verif.Lemmas.Expand
import Verif.Lemmas.Factor
import Verif.Lemmas.Fill
import Verif.Lemmas.Group
import Verif.Lemmas.GroupLoc
import Verif.Lemmas.Hash
import Verif.Lemmas.Int64
import Verif.Lemmas.IntervalComplement
import Verif.Lemmas.IntervalGaps
import Verif.Lemmas.IntervalGroups
import Verif.Lemmas.IntervalKey
import Verif.Lemmas.IntervalOrder
import Verif.Lemmas.ListMatch
import Verif.Lemmas.Load
import Verif.Lemmas.MatchAll
import Verif.Lemmas.MatchColumn
import Verif.Lemmas.MatchCompact
import Verif.Lemmas.MatchDf
import Verif.Lemmas.MatchExpand
import Verif.Lemmas.MatchInfo
import Verif.Lemmas.MatchJoint
import Verif.Lemmas.MatchLocs
import Verif.Lemmas.MatchLoop
import Verif.Lemmas.MatchNest
import Verif.Lemmas.MatchOrder
import Verif.Lemmas.MatchRecurse
import Verif.Lemmas.MatchRemain
import Verif.Lemmas.MatchReorder
import Verif.Lemmas.MatchRounds
import Verif.Lemmas.MatchSearch
import Verif.Lemmas.MatchState
import Verif.Lemmas.MatchTop
import Verif.Lemmas.Names
import Verif.Lemmas.Object
import Verif.Lemmas.OrderChr
import Verif.Lemmas.OrderCore
import Verif.Lemmas.OrderCounting
import Verif.Lemmas.OrderDbl
import Verif.Lemmas.OrderDf
import Verif.Lemmas.OrderEntry
import Verif.Lemmas.OrderGroup
import Verif.Lemmas.OrderInsert
import Verif.Lemmas.OrderInt
import Verif.Lemmas.OrderLex
import Verif.Lemmas.OrderMark
import Verif.Lemmas.OrderPlace
import Verif.Lemmas.OrderRadix
import Verif.Lemmas.OrderRestore
import Verif.Lemmas.OrderSorted
import Verif.Lemmas.OrderSpec
import Verif.Lemmas.OrderStr
import Verif.Lemmas.OrderTop
import Verif.Lemmas.Proxy
import Verif.Lemmas.Ptype
import Verif.Lemmas.PtypeFold
import Verif.Lemmas.Rank
import Verif.Lemmas.RankCount
import Verif.Lemmas.Rbind
import Verif.Lemmas.RbindTop
import Verif.Lemmas.Rep
import Verif.Lemmas.Restore
import Verif.Lemmas.RetOr
import Verif.Lemmas.Runs
import Verif.Lemmas.Scalar
import Verif.Lemmas.Scatter
import Verif.Lemmas.SetOps
import Verif.Lemmas.Shape
import Verif.Lemmas.Sim
import Verif.Lemmas.Size
import Verif.Lemmas.Slots
import Verif.Lemmas.Stack
import Verif.Lemmas.Subscript
import Verif.Lemmas.Table
import Verif.Lemmas.TableUnique
import Verif.Lemmas.Translate
import Verif.Lemmas.Unchop
import Verif.Lemmas.ValSlice
import Verif.Model.Altrep
import Verif.Model.ArgTag
import Verif.Model.Array
import Verif.Model.ArrayNames
import Verif.Model.AsDfRow
import Verif.Model.Cast
import Verif.Model.CastCommon
import Verif.Model.CheckArg
import Verif.Model.Chop
import Verif.Model.ChopTable
import Verif.Model.Collate
import Verif.Model.Compare
import Verif.Model.CountSort
import Verif.Model.Counters
import Verif.Model.DateCast
import Verif.Model.DateTime
import Verif.Model.DfType
import Verif.Model.Dict
import Verif.Model.Dictionary
import Verif.Model.Equal
import Verif.Model.Expand
import Verif.Model.Factor
import Verif.Model.Fallback
import Verif.Model.FallbackChoice
import Verif.Model.Fields
import Verif.Model.Fill
import Verif.Model.FillArg
import Verif.Model.Group
import Verif.Model.Grow
import Verif.Model.Hash
import Verif.Model.Int64
import Verif.Model.Interval
import Verif.Model.Kinds
import Verif.Model.LazyChr
import Verif.Model.ListDim
import Verif.Model.ListMatch
import Verif.Model.LocSize
import Verif.Model.Match
import Verif.Model.MatchExpand
import Verif.Model.MatchJoint
import Verif.Model.Method
import Verif.Model.Missing
import Verif.Model.NameRepair
import Verif.Model.Names
import Verif.Model.NamesTo
import Verif.Model.Object
import Verif.Model.Options
import Verif.Model.OptionsLoc
import Verif.Model.OptionsOrder
import Verif.Model.Order
import Verif.Model.OrderChr
import Verif.Model.OrderDf
import Verif.Model.OrderGroups
import Verif.Model.OuterNames
import Verif.Model.Proxy
import Verif.Model.ProxyKind
import Verif.Model.ProxyRecurse
import Verif.Model.Ptype
import Verif.Model.PtypeObj
import Verif.Model.Rank
import Verif.Model.Rbind
import Verif.Model.RecycleArg
import Verif.Model.Rep
import Verif.Model.RepArg
import Verif.Model.Restore
import Verif.Model.Runs
import Verif.Model.Scalar
import Verif.Model.Scatter
import Verif.Model.SetAttributes
import Verif.Model.SetNames
import Verif.Model.SetOps
import Verif.Model.Shape
import Verif.Model.Size
import Verif.Model.SizeArg
import Verif.Model.Slice
import Verif.Model.Split
import Verif.Model.Subscript
import Verif.Model.SubscriptNames
import Verif.Model.Table
import Verif.Model.Tibble
import Verif.Model.Translate
import Verif.Model.Typeof2S3
import Verif.Model.UnchopFallback
import Verif.Model.ValSlice
import Verif.Props.C01
import Verif.Props.C02
import Verif.Props.C02Arg
import Verif.Props.C03
import Verif.Props.C04
import Verif.Props.C05
import Verif.Props.C06
import Verif.Props.C07
import Verif.Props.C07Laws
import Verif.Props.C08
import Verif.Props.C08Sort
import Verif.Props.C09
import Verif.Props.C09Laws
import Verif.Props.C10
import Verif.Props.C10Laws
import Verif.Props.C11
import Verif.Props.C12
import Verif.Props.C13
import Verif.Props.C14
import Verif.Props.C14Inverse
import Verif.Props.C15
import Verif.Props.C15Arg
import Verif.Props.C15Laws
import Verif.Props.C16
import Verif.Props.C17
import Verif.Props.C17Arg
import Verif.Props.C17Laws
import Verif.Props.C18
import Verif.Props.C19
import Verif.Props.C19Size
import Verif.Props.C20
import Verif.Props.C20Laws
import Verif.Props.C21
import Verif.Props.C22
import Verif.Props.C23
import Verif.Props.C24
import Verif.Props.C25
import Verif.Props.C26
import Verif.Props.C27
import Verif.Props.C28
import Verif.Props.C29
import Verif.Props.C30
import Verif.Props.C30Sorted
import Verif.Props.C31
import Verif.Props.C32
import Verif.Props.C33
import Verif.Props.C34
import Verif.Props.C35
import Verif.Props.C36
import Verif.Props.C37
import Verif.Props.C37Laws
import Verif.Props.C38
import Verif.Props.C38Laws
import Verif.Props.C39
import Verif.Props.C40
import Verif.Props.C40Laws
import Verif.Props.C41
import Verif.Props.C42
import Verif.Props.C43
import Verif.Props.C43Laws
import Verif.Props.C44
import Verif.Props.C44Laws
import Verif.Props.C45
import Verif.Props.C45Laws
import Verif.Props.C45Tibble
import Verif.Props.C46
import Verif.Props.C46Laws
import Verif.Props.C46Seq
import Verif.Props.C47
import Verif.Props.C48
import Verif.Props.C49
import Verif.Props.C49Laws
import Verif.Props.C50
import Verif.Props.C50Laws
import Verif.Props.C51
import Verif.Props.C52
import Verif.Props.C53
import Verif.Props.C54
import Verif.Props.C55
import Verif.Props.C56
import Verif.Props.C57
import Verif.Props.C58
import Verif.Props.C59
import Verif.Props.C60
import Verif.Props.C61
import Verif.Props.C62
import Verif.Props.C63
import Verif.Props.C64
import Verif.Props.C65
import Verif.Props.C66
import Verif.Props.C67
import Verif.Props.C68
import Verif.Props.C68Casts
import Verif.Props.C69
import Verif.Props.C70
import Verif.Props.C71
import Verif.Props.C72
import Verif.Props.C73
import Verif.Props.C74
import Verif.Props.C75
import Verif.Props.C76
import Verif.Props.C77
import Verif.Props.C78
import Verif.Props.C78Set
import Verif.Props.C79
import Verif.Props.C80
import Verif.Props.C81
import Verif.Props.C82
import Verif.Props.C83
import Verif.Props.C84
import Verif.Props.C84Recurse
import Verif.Props.C85
import Verif.Props.C86
import Verif.Props.C87
import Verif.Props.C88
import Verif.Props.C89
import Verif.Props.C90
import Verif.Props.C90Loc
import Verif.Props.C90Order
import Verif.Props.C91
import Verif.Props.C92
import Verif.Props.C92Class
import Verif.Props.C93
import Verif.Props.C94
import Verif.Props.C94Check
import Verif.Props.C95
import Verif.Props.C96
import Verif.Props.C97
import Verif.Props.C98
import Verif.Props.C99
import Verif.Props.Ex
import Verif.Props.ExInterval
import Verif.Props.ExOrder
import Verif.Spec
import Verif.SpecAltrep
import Verif.SpecBind
import Verif.SpecCast
import Verif.SpecDfType
import Verif.SpecFactor
import Verif.SpecHeap
import Verif.SpecInterval
import Verif.SpecList
import Verif.SpecMatch
import Verif.SpecOrder
import Verif.SpecRank
import Verif.SpecRepair
import Verif.SpecScatter
import Verif.SpecShape
import Verif.SpecTable
import Verif.SpecType
import Verif.SpecValue
