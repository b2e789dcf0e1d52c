import Verif.Props.LinAlg
import Verif.Props.Sor
import Verif.Props.Assembly
import Verif.Props.Islands
import Verif.Props.Solver
import Verif.Props.Fresh
import Verif.Props.Ports
import Verif.Props.Init
import Verif.Props.Elements
import Verif.Props.Kirchhoff
import Verif.Props.Orchestrator
import Verif.Props.Jumper
import Verif.Props.MinorStepLog
import Verif.Props.PolyFluid
import Verif.Props.FluidNode
import Verif.Props.Bus
import Verif.Props.Elect
import Verif.Props.FluidNetwork
import Verif.Props.Interp
import Verif.Props.Battery
import Verif.Props.Intersect
import Verif.Props.NetCap
import Verif.Props.PhaseChange
import Verif.Props.Pid
import Verif.Props.Swarm
import Verif.Props.Descent
import Verif.Props.Valve
import Verif.Props.JumperEnds
import Verif.Props.Converter
import Verif.Props.ConverterTrips
import Verif.Props.ConverterParts
import Verif.Props.ConverterNet
import Verif.Props.Trace
import Verif.Props.Reactor
import Verif.Props.Separator
import Verif.Props.Utc
import Verif.Props.Sensor
import Verif.Props.Units
import Verif.Props.Thermostat
import Verif.Props.Relief
import Verif.Props.Conductivity
import Verif.Props.CheckValve
import Verif.Props.Mixture
import Verif.Props.FluidIf
import Verif.Props.ThermalLinks
import Verif.Props.Heat
import Verif.Props.Hatch
import Verif.Props.Sorption
import Verif.Props.Laguerre
import Verif.Props.Fan
import Verif.Props.Shaft
import Verif.Props.LambertW
import Verif.Props.PvCell
import Verif.Props.PvString
import Verif.Props.PvArray
import Verif.Props.PvRegConv
import Verif.Props.PvRegShunt
import Verif.Props.Ips
import Verif.Props.Adsorber
import Verif.Props.MultiAdsorber
import Verif.Props.Membrane
import Verif.Props.FlowControl
import Verif.Props.Crew
import Verif.Props.H2Redox
import Verif.Props.Balloon
import Verif.Props.Sublimator
import Verif.Props.FireSource
import Verif.Props.Evaporation
import Verif.Props.Accumulator
import Verif.Props.UserLoad
import Verif.Props.SwitchUtil
import Verif.Props.LoadSwitch
import Verif.Props.Selector
import Verif.Props.ExternalIf
import Verif.Props.Analyzers
import Verif.Props.BalancedPrv
import Verif.Props.Rocket
import Verif.Props.MultiSeparator
import Verif.Props.Shadow
import Verif.Props.SeparatorGas
import Verif.Props.PumpMotor
import Verif.Props.Random
import Verif.Props.PowerResistor
import Verif.Props.PowerLoad
import Verif.Props.RealDiode
import Verif.Props.CurveFit
import Verif.Props.ParseTool
import Verif.Props.SmokeDetector
import Verif.Props.Saturation
import Verif.Props.LiquidWater
import Verif.Props.HeatOfVaporization
import Verif.Props.Brent
import Verif.Props.Switch
import Verif.Props.Coordination
import Verif.Props.Euler
import Verif.Props.Rigid
import Verif.Props.Queue
import Verif.Props.Filter
