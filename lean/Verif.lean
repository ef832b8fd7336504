import Verif.Wire.Props
import Verif.Remote.Props
import Verif.Client.TunnelProps
import Verif.Client.AccountProps
import Verif.Client.FileProps
import Verif.Client.RunProps
import Verif.Client.LifecycleProps
import Verif.Script.SettingsProps
import Verif.Script.ApiProps
import Verif.Script.ConnectionProps
import Verif.Ops.SafetyProps
import Verif.Ops.OptionProps
import Verif.Ops.PredictProps
import Verif.Ops.FrameProps
import Verif.Ops.ConvergeProps
import Verif.Ops.RepeatProps
import Verif.Ops.LineProps
import Verif.Ops.PackageProps
import Verif.Ops.AccountProps
import Verif.Ops.UserProps
import Verif.Ops.ServiceProps
import Verif.Ops.ReloadProps
import Verif.Ops.GitProps
import Verif.Ops.MirrorProps
import Verif.Ops.MirrorRepeatProps
import Verif.Ops.EchoLemmas
import Verif.Ops.MirrorDryLemmas
import Verif.Ops.MirrorDryProps
import Verif.Ops.DeploySpec
import Verif.Ops.DeployPathLemmas
import Verif.Ops.DeployLemmas
import Verif.Ops.DeployProps
import Verif.Ops.ForesightSpec
import Verif.Ops.ForesightLemmas
import Verif.Ops.ForesightProps
import Verif.Ops.CallsSpec
import Verif.Ops.CallsLemmas
import Verif.Ops.CallsProps
import Verif.Ops.SiteSpec
import Verif.Ops.SiteLemmas
import Verif.Ops.SiteExample
import Verif.Ops.SiteProps
import Verif.Ops.IndependentProps
import Verif.Ops.SecrecyProps
import Verif.Ops.LinesProps
import Verif.Ops.DisplaySpec
import Verif.Ops.DisplayLemmas
import Verif.Ops.DisplayProps
import Verif.Ops.DryProps
import Verif.Inventory.UrlProps
import Verif.Inventory.GroupProps
import Verif.Inventory.HostProps
import Verif.Inventory.WrapperProps
import Verif.Inventory.NamesLemmas
import Verif.Inventory.LoadProps
import Verif.Inventory.ConflictProps
import Verif.Inventory.IsolationProps
import Verif.Inventory.Inspect
import Verif.Inventory.InspectSpec
import Verif.Inventory.InspectLemmas
import Verif.Inventory.InspectProps
import Verif.Run.Table
import Verif.Run.TableSpec
import Verif.Run.TableLemmas
import Verif.Inventory.InspectTable
import Verif.Inventory.TableProps
import Verif.Run.Init
import Verif.Run.InitSpec
import Verif.Run.InitProps
import Verif.Run.ScriptProps
import Verif.Run.ParamsProps
import Verif.Run.MainProps
import Verif.Run.LoggerProps
import Verif.Run.ReportProps
import Verif.Ops.AuthorityProps
import Verif.Inventory.LoaderProps
import Verif.Ops.ReportProps
import Verif.Ops.TemplateProps
import Verif.Py.NumSpec
import Verif.Py.GrammarLemmas
import Verif.Client.RefusalProps
import Verif.Ops.ResultSpec
import Verif.Ops.ResultLemmas
import Verif.Ops.ResultProps
import Verif.Run.Program
import Verif.Run.ProgramSpec
import Verif.Run.ProgramLemmas
import Verif.Run.ProgramProps
import Verif.Run.SitesProps
import Verif.Inventory.ModulesProps
import Verif.Run.Cmdline
import Verif.Run.CmdlineSpec
import Verif.Run.CmdlineLemmas
import Verif.Run.CmdlineProps
import Verif.Run.Start
import Verif.Run.StartProps
import Verif.Run.Active
import Verif.Run.ActiveSpec
import Verif.Run.ActiveLemmas
import Verif.Run.ActiveProps
import Verif.Run.Failure
import Verif.Run.FailureSpec
import Verif.Run.FailureLemmas
import Verif.Run.FailureProps
import Verif.Client.Pipes
import Verif.Client.PipesSpec
import Verif.Client.PipesLemmas
import Verif.Client.PipesProps
import Verif.Client.Shell
import Verif.Client.Bootstrap
import Verif.Client.BootstrapSpec
import Verif.Client.BootstrapLemmas
import Verif.Client.BootstrapProps
import Verif.Ops.GitResumeSpec
import Verif.Ops.GitResumeLemmas
import Verif.Ops.GitResumeProps
import Verif.Ops.ScriptedSpec
import Verif.Ops.BalancedLemmas
import Verif.Ops.ScriptedLemmas
import Verif.Ops.ScriptedProps
import Verif.Ops.TogetherSpec
import Verif.Ops.TogetherLemmas
import Verif.Ops.TogetherProps
import Verif.Ops.BesideSpec
import Verif.Ops.BesideLemmas
import Verif.Ops.BesideCallLemmas
import Verif.Ops.BesideAskLemmas
import Verif.Ops.BesideProps
import Verif.Ops.DisplayScriptProps
import Verif.Run.DisplayProps
import Verif.Ops.CrowdSpec
import Verif.Ops.CrowdLemmas
import Verif.Ops.CrowdProps
import Verif.Ops.MemorySpec
import Verif.Ops.MemoryLemmas
import Verif.Ops.MemoryProps
import Verif.Ops.OrderSpec
import Verif.Ops.OrderLemmas
import Verif.Ops.OrderProps
import Verif.Run.SplitSpec
import Verif.Run.SplitLemmas
import Verif.Run.SplitProps
import Verif.Run.EachSpec
import Verif.Run.EachProps
import Verif.Ops.EffortSpec
import Verif.Ops.EffortLemmas
import Verif.Ops.EffortProps
import Verif.Ops.FailSpec
import Verif.Ops.FailLemmas
import Verif.Ops.FailProps
import Verif.Inventory.Raw
import Verif.Inventory.RawSpec
import Verif.Inventory.RawLemmas
import Verif.Inventory.RawProps
import Verif.Ops.ExposeSpec
import Verif.Ops.ExposeLemmas
import Verif.Ops.ExposeProps
import Verif.Ops.TornLemmas
import Verif.Ops.TornProps
import Verif.Ops.PasswordSpec
import Verif.Ops.PasswordLemmas
import Verif.Ops.PasswordProps
import Verif.Ops.UndoLemmas
import Verif.Ops.UndoProps
import Verif.Ops.HistoryLemmas
import Verif.Ops.HistoryProps
import Verif.Inventory.Overview
import Verif.Inventory.OverviewSpec
import Verif.Inventory.OverviewProps
import Verif.Run.Transcript
import Verif.Run.TranscriptSpec
import Verif.Run.TranscriptLemmas
import Verif.Run.TranscriptProps
import Verif.Script.Args
import Verif.Script.ArgsSpec
import Verif.Script.ArgsProps
