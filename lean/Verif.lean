import Verif.Reader.Props
import Verif.Writer.Props
import Verif.SeqNum.Props
import Verif.AnyThread.Props
import Verif.CmdQueue.Props
import Verif.Timeout.Props
import Verif.Auth.Props
import Verif.Notify.Props
import Verif.ThreadEvents.Props
import Verif.Lifecycle.Props
import Verif.Frames.Props
import Verif.Grouping.Props
import Verif.Breakpoints.Props
import Verif.HitCond.Props
import Verif.Exceptions.Props
import Verif.Dispatch.Props
import Verif.Dispatch.StepEnd
import Verif.TryExcept.Props
import Verif.Filtering.Props
import Verif.FilterCache.Props
import Verif.Paths.Props
import Verif.SourceMap.Props
import Verif.Ids.Props
import Verif.Xml.Props
import Verif.LogMsg.Props
import Verif.CmdLine.Props
import Verif.SafeRepr.Props
import Verif.WinQuote.Props
import Verif.PatchArgs.Props
import Verif.FsNotify.Props
import Verif.Resolver.Props
import Verif.Columns.Props
import Verif.Stack.Props
import Verif.Stepping.Props
import Verif.Monitor.Props
import Verif.Monitor.Witness
import Verif.Resolver.ContainerProps
import Verif.Modules.Props
import Verif.MonStep.Props
import Verif.Bytecode.Props
import Verif.Assemble.Props
import Verif.FrameEval.Props
import Verif.Assemble.ReadProps
import Verif.Requests.Props
import Verif.Requests.Success
import Verif.MonExc.Props
import Verif.IgnoreExc.Props
import Verif.Locks.Props
import Verif.Wake.Props
import Verif.Evaluate.Props
import Verif.Redirect.Props
import Verif.RunTests.Props
import Verif.Reload.Props
import Verif.DontTrace.Props
import Verif.Console.Props
import Verif.StepInto.Props
import Verif.StepInto.Trace
import Verif.Template.Props
import Verif.LineReq.Props
import Verif.Complete.Props
import Verif.ThreadIds.Props
import Verif.Options.Props
import Verif.RealCase.Props
import Verif.TraceProp.Props
import Verif.ThreadPatch.Props
import Verif.StackSize.Props
import Verif.ReturnValues.Props
import Verif.Terminate.Props
import Verif.ExcInfo.Props
import Verif.Disasm.Props
import Verif.Startup.Props
import Verif.EvalName.Props
import Verif.TypeCache.Props
import Verif.Dispose.Props
import Verif.Greenlets.Props
import Verif.TopLevel.Props
import Verif.Jump.Props
import Verif.StepCalls.Props
import Verif.Process.Props
import Verif.Goto.Props
import Verif.StopReason.Props
import Verif.EvalTimeout.Props
import Verif.Interp.Props
import Verif.StdIn.Props
import Verif.SetVar.Props
import Verif.MonThread.Props
import Verif.HideThreads.Props
import Verif.TemplateStep.Props
import Verif.TemplateVars.Props
import Verif.Pytest.Props
import Verif.ExcTables.Props
import Verif.Canonical.Props
import Verif.TemplateLines.Props
import Verif.ComplServer.Props
import Verif.RunArgs.Props
import Verif.RunFiles.Props
import Verif.Logging.Props
import Verif.AutoReload.Props
import Verif.ThreadReqs.Props
import Verif.RunFile.Props
import Verif.Tables.Props
import Verif.AttachPid.Props
import Verif.ImportHook.Props
import Verif.VarPath.Props
import Verif.Extensions.Props
import Verif.LoadFull.Props
import Verif.OldLine.Props
import Verif.Shadow.Props
import Verif.PluginBreaks.Props
import Verif.FutureEnd.Props
import Verif.GuiLoop.Props
import Verif.Connect.Props
import Verif.NextTargets.Props
