import Verif.Names.Props
import Verif.Access.Props
import Verif.Access.PropsMore
import Verif.Filters.Props
import Verif.Filters.PropsMore
import Verif.Project.Props
import Verif.Project.PropsMore
import Verif.JoinAs.Props
import Verif.Validate.Props
import Verif.JoinGraph.Props
import Verif.Design.Props
import Verif.Design.PropsMore
import Verif.Joined.Props
import Verif.Joined.PropsMore
import Verif.SymAgg.Props
import Verif.SymAgg.PropsMore
import Verif.Dates.Props
import Verif.Dates.PropsWritten
import Verif.FilterStr.Props
import Verif.FilterStr.PropsRows
import Verif.FilterStr.PropsText
import Verif.Tiers.Props
import Verif.Tiers.PropsText
import Verif.Week.Props
import Verif.Week.PropsMore
import Verif.Sets.Props
import Verif.Sets.PropsMore
import Verif.Merged.Props
import Verif.Merged.PropsText
import Verif.MergeStmt.Props
import Verif.MergeStmt.PropsAnswer
import Verif.MergePlan.Props
import Verif.MergePlan.PropsDates
import Verif.Choose.Props
import Verif.Mapped.Props
import Verif.Mapped.PropsOnly
import Verif.Always.Props
import Verif.ParseQ.Props
import Verif.NonAdd.Props
import Verif.Refs.Props
import Verif.Refs.PropsMore
import Verif.Arb.Props
import Verif.Arb.PropsMore
import Verif.Funnel.Props
import Verif.Funnel.PropsText
import Verif.Cumulative.Props
import Verif.Cumulative.PropsMore
import Verif.CumText.PropsMore
import Verif.CumText.PropsColumn
import Verif.Dump.Props
import Verif.Dump.PropsMore
import Verif.Duration.Props
import Verif.TimeGroup.Props
import Verif.TimeGroup.PropsMore
import Verif.Answer.Props
import Verif.Answer.PropsMore
import Verif.Answer.PropsEx
import Verif.Window.Props
import Verif.Window.PropsMore
import Verif.Window.PropsEx
import Verif.Usable.Props
import Verif.Usable.PropsEx
import Verif.Usable.PropsMerge
import Verif.Usable.PropsMap
import Verif.Usable.PropsMapEx
import Verif.TableName.Props
import Verif.FieldCheck.Props
import Verif.FieldCheck.PropsProject
import Verif.ViewCheck.Props
import Verif.ModelCheck.Props
import Verif.Mql.Props
import Verif.Connect.Props
import Verif.Connect.PropsHand
import Verif.Connect.PropsRun
import Verif.Connect.PropsMore
import Verif.Connect.PropsExec
import Verif.Mql.PropsRaises
import Verif.Api.Model
import Verif.Api.Spec
import Verif.Api.Lemmas
import Verif.Api.Props
import Verif.Api.PropsAsk
import Verif.Api.PropsRun
import Verif.Api.Examples
import Verif.Api.PropsSql
import Verif.Api.Dims
import Verif.Api.PropsDims
import Verif.Seed.Model
import Verif.Seed.Spec
import Verif.Seed.Props
import Verif.Seed.PropsMore
import Verif.Seed.PropsMark
import Verif.Seed.PropsAll
import Verif.Repo.Model
import Verif.Repo.Spec
import Verif.Repo.Lemmas
import Verif.Repo.Search
import Verif.Repo.Props
import Verif.Repo.PropsMore
import Verif.Repo.PropsKind
import Verif.Repo.PropsLocal
import Verif.Clone.Model
import Verif.Clone.Spec
import Verif.Clone.Lemmas
import Verif.Clone.Key
import Verif.Clone.Props
import Verif.Clone.PropsMore
import Verif.Clone.PropsFaults
import Verif.Clone.PropsLeft
import Verif.Dash.PropsMore
import Verif.JoinOn.PropsMore
import Verif.Cli.PropsAgain
import Verif.Cli.PropsLoad
import Verif.Cli.PropsOut
import Verif.Cond.Examples
import Verif.Cond.PropsText
import Verif.Dash.PropsErr
import Verif.SqlText.Props
import Verif.Expr.PropsCases
import Verif.Expr.PropsMerged
import Verif.Expr.PropsCycle
import Verif.Cases.Props
import Verif.Cases.PropsMore
import Verif.FunnelTable.Props
import Verif.FunnelTable.PropsMore
import Verif.MergeWhole.PropsWhole
import Verif.MergeWhole.PropsRowsEx
import Verif.Column.Props
import Verif.Secure.PropsEx
import Verif.Secure.PropsMerged
import Verif.Drill.PropsEx
import Verif.Slice.PropsJoined
import Verif.Top.PropsEx
import Verif.Local.PropsEx
import Verif.FunnelCompare.Props
import Verif.CumCompare.Props
import Verif.Runner.Props
import Verif.Dialects.PropsEx
import Verif.Narrow.PropsEx
import Verif.ArbAnswer.PropsEx
import Verif.ArbAnswer.PropsSub
