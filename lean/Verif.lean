import Verif.Audit
import Verif.Base.Arr
import Verif.Base.Binary32
import Verif.Base.Fl
import Verif.Model.Adc
import Verif.Model.AngleRead
import Verif.Model.Buffers
import Verif.Model.Calc
import Verif.Model.Callback
import Verif.Model.Capture
import Verif.Model.Config
import Verif.Model.Console
import Verif.Model.ConsoleIo
import Verif.Model.ConsolePass
import Verif.Model.ConsoleTrace
import Verif.Model.Decoder
import Verif.Model.Default
import Verif.Model.Engine
import Verif.Model.EventLog
import Verif.Model.EventTimer
import Verif.Model.Flash
import Verif.Model.Halt
import Verif.Model.Hosted
import Verif.Model.Inputs
import Verif.Model.Interrupts
import Verif.Model.Port
import Verif.Model.Pwm
import Verif.Model.Sched
import Verif.Model.Sensors
import Verif.Model.Sim
import Verif.Model.Structure
import Verif.Model.Table
import Verif.Model.Tasks
import Verif.Model.TestBench
import Verif.Model.TimerRegs
import Verif.Model.Usb
import Verif.Model.UsbRx
import Verif.Model.UsbTx
import Verif.Model.Util
import Verif.Model.Wire
import Verif.Proofs.Aim
import Verif.Proofs.Apart
import Verif.Proofs.Beat
import Verif.Proofs.BeatAim
import Verif.Proofs.BeatFuel
import Verif.Proofs.BeatHeld
import Verif.Proofs.BeatHyp
import Verif.Proofs.BeatOnce
import Verif.Proofs.BeatRpm
import Verif.Proofs.BeatRun
import Verif.Proofs.BeatStep
import Verif.Proofs.BeatWheel
import Verif.Proofs.Buffers
import Verif.Proofs.CalcSafe
import Verif.Proofs.Callback
import Verif.Proofs.CamDemoRun
import Verif.Proofs.CamPlan
import Verif.Proofs.Cbor
import Verif.Proofs.Clock
import Verif.Proofs.ClockRun
import Verif.Proofs.Command
import Verif.Proofs.CommandRun
import Verif.Proofs.ConsoleSet
import Verif.Proofs.ConsoleTrace
import Verif.Proofs.ConsoleTree
import Verif.Proofs.CycleCore
import Verif.Proofs.CycleRun
import Verif.Proofs.DecSafe
import Verif.Proofs.Decoder
import Verif.Proofs.Describes
import Verif.Proofs.EngDecode
import Verif.Proofs.Engine
import Verif.Proofs.EvMove
import Verif.Proofs.Even
import Verif.Proofs.EvenPlan
import Verif.Proofs.EventLog
import Verif.Proofs.Expire
import Verif.Proofs.Fl
import Verif.Proofs.FreePlan
import Verif.Proofs.HeldCore
import Verif.Proofs.Holds
import Verif.Proofs.Inject
import Verif.Proofs.LateRun
import Verif.Proofs.PowerOn
import Verif.Proofs.PulsesCore
import Verif.Proofs.Reader
import Verif.Proofs.Recount
import Verif.Proofs.RelErr
import Verif.Proofs.ReplyConsole
import Verif.Proofs.ReplySize
import Verif.Proofs.Request
import Verif.Proofs.Resize
import Verif.Proofs.Restore
import Verif.Proofs.RestoreTree
import Verif.Proofs.Scan
import Verif.Proofs.Sched
import Verif.Proofs.SchedSafe
import Verif.Proofs.SensedRun
import Verif.Proofs.Sweep
import Verif.Proofs.Table
import Verif.Proofs.TableAcc
import Verif.Proofs.TableFl
import Verif.Proofs.TableSharp
import Verif.Proofs.TestBench
import Verif.Proofs.Time
import Verif.Proofs.Total
import Verif.Proofs.Tuning
import Verif.Proofs.Turn
import Verif.Proofs.UsbRx
import Verif.Proofs.UsbTx
import Verif.Proofs.Util
import Verif.Proofs.Wheel
import Verif.Proofs.Whole
import Verif.Proofs.WindowRun
import Verif.Proofs.Wire
import Verif.Props.Accuracy
import Verif.Props.Adc
import Verif.Props.AnyRequest
import Verif.Props.Buffers
import Verif.Props.Callback
import Verif.Props.Cam
import Verif.Props.CamEngine
import Verif.Props.CamEngineDemo
import Verif.Props.CamPulse
import Verif.Props.CamTotal
import Verif.Props.Capture
import Verif.Props.Command
import Verif.Props.CommandDemo
import Verif.Props.CommandEven
import Verif.Props.Config
import Verif.Props.Console
import Verif.Props.CurrentAngle
import Verif.Props.CutRun
import Verif.Props.Cuts
import Verif.Props.Cycle
import Verif.Props.CycleDemo
import Verif.Props.Decoder
import Verif.Props.Describes
import Verif.Props.Dialogue
import Verif.Props.Duty
import Verif.Props.Engine
import Verif.Props.EngineWheel
import Verif.Props.EngineWheelDemo
import Verif.Props.Even
import Verif.Props.EvenEngine
import Verif.Props.EvenEngineDemo
import Verif.Props.EvenFuelDemo
import Verif.Props.EventLog
import Verif.Props.EventTimer
import Verif.Props.Expiry
import Verif.Props.Feed
import Verif.Props.Flash
import Verif.Props.FreeEngine
import Verif.Props.FreeEngineDemo
import Verif.Props.FreeFuelDemo
import Verif.Props.FreeWheel
import Verif.Props.FuelAccuracy
import Verif.Props.Fueling
import Verif.Props.Halt
import Verif.Props.Held
import Verif.Props.Hosted
import Verif.Props.Injection
import Verif.Props.InjectionFull
import Verif.Props.Inputs
import Verif.Props.Interrupts
import Verif.Props.Knock
import Verif.Props.Method
import Verif.Props.Named
import Verif.Props.Port
import Verif.Props.PowerOn
import Verif.Props.PowerOnDemo
import Verif.Props.Pulses
import Verif.Props.PulsesDemo
import Verif.Props.Pwm
import Verif.Props.Rate
import Verif.Props.Reply
import Verif.Props.Request
import Verif.Props.RequestStates
import Verif.Props.Restart
import Verif.Props.Restore
import Verif.Props.Safe
import Verif.Props.Sched
import Verif.Props.SensorAccuracy
import Verif.Props.Sensors
import Verif.Props.Settle
import Verif.Props.Sim
import Verif.Props.Smooth
import Verif.Props.Spark
import Verif.Props.SparkFull
import Verif.Props.SparkWheel
import Verif.Props.Speed
import Verif.Props.Stream
import Verif.Props.Table
import Verif.Props.Tasks
import Verif.Props.TestBench
import Verif.Props.Time
import Verif.Props.TimerRegs
import Verif.Props.Tuning
import Verif.Props.Turn
import Verif.Props.Usb
import Verif.Props.UsbRx
import Verif.Props.UsbTx
import Verif.Props.Util
import Verif.Props.Wheel
import Verif.Props.WheelTotal
import Verif.Props.Window
import Verif.Props.WindowAccuracy
import Verif.Props.WindowRun
import Verif.Props.ZeroWidth
import Verif.Spec.Adc
import Verif.Spec.Callback
import Verif.Spec.Cam
import Verif.Spec.CamRun
import Verif.Spec.Capture
import Verif.Spec.Cbor
import Verif.Spec.Command
import Verif.Spec.Console
import Verif.Spec.CutRun
import Verif.Spec.Decoder
import Verif.Spec.Demo
import Verif.Spec.Describes
import Verif.Spec.Dialogue
import Verif.Spec.Duty
import Verif.Spec.Engine
import Verif.Spec.Even
import Verif.Spec.EvenRun
import Verif.Spec.EventLog
import Verif.Spec.Firing
import Verif.Spec.Fueling
import Verif.Spec.Injection
import Verif.Spec.Interp
import Verif.Spec.Interrupts
import Verif.Spec.Named
import Verif.Spec.Output
import Verif.Spec.Port
import Verif.Spec.PowerOn
import Verif.Spec.Pulses
import Verif.Spec.Pwm
import Verif.Spec.Reader
import Verif.Spec.Request
import Verif.Spec.Restore
import Verif.Spec.Safe
import Verif.Spec.Sim
import Verif.Spec.Spark
import Verif.Spec.Stream
import Verif.Spec.Tasks
import Verif.Spec.Time
import Verif.Spec.TimerRegs
import Verif.Spec.Tuning
import Verif.Spec.Turn
import Verif.Spec.UsbPackets
import Verif.Spec.Wheel
import Verif.Spec.WheelRun
import Verif.Spec.Window
import Verif.Spec.WindowRun
import Verif.Spec.Wire
