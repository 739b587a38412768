import Verif.Proof.Refine
import Verif.Props.Write
import Verif.Props.Read
import Verif.Props.History
import Verif.Props.Handle
import Verif.Props.File
import Verif.Props.Bytes
import Verif.Props.Crash
import Verif.Props.Usable
import Verif.Props.Conc
import Verif.Props.Bw
import Verif.Proof.WakeQuiet
import Verif.Props.Wake
import Verif.Props.WakeDemo
import Verif.Props.Ux
import Verif.Props.BwName
import Verif.Props.Tool
import Verif.Props.ToolHex
import Verif.Props.Total
import Verif.Props.OpenFile
import Verif.Props.Conform
import Verif.Props.Drain
import Verif.Props.Main
import Verif.Props.Pub
import Verif.Props.Ctl
import Verif.Props.OpenAny
import Verif.Props.Creator
import Verif.Props.Race
import Verif.Props.Res
import Verif.Props.Exit
import Verif.Props.SubAny
import Verif.Model.Power
import Verif.Spec.Power
import Verif.Proof.Power
import Verif.Props.Power
import Verif.Proof.Live
import Verif.Proof.LiveM
import Verif.Props.Live
import Verif.Model.BwKill
import Verif.Proof.BwKill
import Verif.Props.BwKill
import Verif.Model.WakeKill
import Verif.Proof.FarmRel
import Verif.Proof.WakeKill
import Verif.Props.WakeKill
import Verif.Props.One
import Verif.Props.Args
import Verif.Props.Hold
import Verif.Props.Acquire
import Verif.Props.Exact
import Verif.Props.Algebra
import Verif.Props.Group
import Verif.Props.Room
import Verif.Spec.Layout
import Verif.Props.Layout
import Verif.Props.Evict
import Verif.Props.Monitor
import Verif.Spec.Buffered
import Verif.Props.Buffered
import Verif.Props.Poison
import Verif.Spec.FarmLog
import Verif.Proof.FarmGeo
import Verif.Proof.FarmKill
import Verif.Proof.FarmRead
import Verif.Proof.FarmWrite
import Verif.Proof.FarmLife
import Verif.Props.FarmLife
import Verif.Props.FarmSound
import Verif.Proof.LiveFarm
import Verif.Props.LiveFarm
import Verif.Model.BwTool
import Verif.Props.BwTool
import Verif.Spec.Failures
import Verif.Proof.Failures
import Verif.Props.Failures
import Verif.Props.Turn
import Verif.Props.Work
import Verif.Model.Query
import Verif.Props.Query
import Verif.Proof.Safe
import Verif.Props.Safe
import Verif.Props.SafeFile
import Verif.Proof.MapB
import Verif.Props.MapAny
import Verif.Proof.Touch
import Verif.Props.Touch
