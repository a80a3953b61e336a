import Verif.Basic.Dict
import Verif.Basic.Events
import Verif.Basic.Time
import Verif.Basic.Val
import Verif.Model.Agents
import Verif.Model.Asking
import Verif.Model.Attrs
import Verif.Model.Builtin
import Verif.Model.BuiltinRun
import Verif.Model.CarsPQueue
import Verif.Model.CarsRun
import Verif.Model.Cli
import Verif.Model.CliMain
import Verif.Model.Convert
import Verif.Model.Coroutine
import Verif.Model.CrawlRun
import Verif.Model.Data
import Verif.Model.Database
import Verif.Model.Debugger
import Verif.Model.Declare
import Verif.Model.Distribution
import Verif.Model.Driver
import Verif.Model.Env
import Verif.Model.ExCars
import Verif.Model.ExGenerator
import Verif.Model.ExMarkov
import Verif.Model.ExNews
import Verif.Model.ExNewsRun
import Verif.Model.ExNoop
import Verif.Model.ExProgrammatic
import Verif.Model.ExPubs
import Verif.Model.ExRabbits
import Verif.Model.ExRabbits2
import Verif.Model.ExSocial
import Verif.Model.ExTerror
import Verif.Model.ExTimers
import Verif.Model.ExTorvalds
import Verif.Model.ExVirus
import Verif.Model.ExWealth
import Verif.Model.FSM
import Verif.Model.Files
import Verif.Model.Filter
import Verif.Model.FloatLock
import Verif.Model.Floats
import Verif.Model.Frames
import Verif.Model.FromConfig
import Verif.Model.GeneratorRun
import Verif.Model.Geo
import Verif.Model.Heap
import Verif.Model.Heapq
import Verif.Model.Identity
import Verif.Model.Interval
import Verif.Model.IterAgents
import Verif.Model.Launch
import Verif.Model.Literal
import Verif.Model.Loading
import Verif.Model.Lockstep
import Verif.Model.Mail
import Verif.Model.MailPQueue
import Verif.Model.Mapping
import Verif.Model.MarkovRun
import Verif.Model.Messages
import Verif.Model.Nan
import Verif.Model.Nested
import Verif.Model.NetCreate
import Verif.Model.NetOps
import Verif.Model.Network
import Verif.Model.NewsRun
import Verif.Model.OwnRun
import Verif.Model.PFloats
import Verif.Model.PQueue
import Verif.Model.PTies
import Verif.Model.Parallel
import Verif.Model.ParamsId
import Verif.Model.Plot
import Verif.Model.RabbitsRun
import Verif.Model.Random
import Verif.Model.Refine
import Verif.Model.Report
import Verif.Model.Results
import Verif.Model.Rounds
import Verif.Model.RunLoop
import Verif.Model.Serialization
import Verif.Model.Serving
import Verif.Model.Simulation
import Verif.Model.Solo
import Verif.Model.Supers
import Verif.Model.TerrNet
import Verif.Model.Timed
import Verif.Model.TimersRun
import Verif.Model.Tools
import Verif.Model.Views
import Verif.Model.VirusSim
import Verif.Model.VirusStart
import Verif.Model.WealthRun
import Verif.Model.Web
import Verif.Proofs.Agents
import Verif.Proofs.Asking
import Verif.Proofs.Calendar
import Verif.Proofs.CarsEnd
import Verif.Proofs.CarsRun
import Verif.Proofs.Converse
import Verif.Proofs.ExCars
import Verif.Proofs.ExRabbits2
import Verif.Proofs.ExRabbits3
import Verif.Proofs.FSM
import Verif.Proofs.Floats
import Verif.Proofs.Heapq
import Verif.Proofs.Literal
import Verif.Proofs.Mail
import Verif.Proofs.Nan
import Verif.Proofs.Network
import Verif.Proofs.PFloats
import Verif.Proofs.PQueue
import Verif.Proofs.Policy
import Verif.Proofs.Random
import Verif.Proofs.Refine
import Verif.Proofs.RunInv
import Verif.Proofs.RunLoop
import Verif.Proofs.Serving
import Verif.Proofs.Simulation
import Verif.Proofs.Solo
import Verif.Proofs.Timed
import Verif.Proofs.VirusSim
import Verif.Props.Additions
import Verif.Props.AgentOps
import Verif.Props.Agents
import Verif.Props.Asking
import Verif.Props.Attrs
import Verif.Props.Backward
import Verif.Props.Births
import Verif.Props.Builtin
import Verif.Props.BuiltinPRun
import Verif.Props.BuiltinRun
import Verif.Props.CarsEnd
import Verif.Props.CarsPQueue
import Verif.Props.CarsRun
import Verif.Props.Cli
import Verif.Props.CliMain
import Verif.Props.Continue
import Verif.Props.Converse
import Verif.Props.Convert
import Verif.Props.Coroutine
import Verif.Props.CrawlPRun
import Verif.Props.CrawlRun
import Verif.Props.Data
import Verif.Props.Database
import Verif.Props.Debugger
import Verif.Props.Declare
import Verif.Props.Distribution
import Verif.Props.Driver
import Verif.Props.Env
import Verif.Props.ExCars
import Verif.Props.ExGenerator
import Verif.Props.ExMarkov
import Verif.Props.ExNews
import Verif.Props.ExNewsRun
import Verif.Props.ExNoop
import Verif.Props.ExProgrammatic
import Verif.Props.ExPubs
import Verif.Props.ExRabbits
import Verif.Props.ExRabbits2
import Verif.Props.ExRabbits3
import Verif.Props.ExRabbits4
import Verif.Props.ExRabbits5
import Verif.Props.ExSocial
import Verif.Props.ExTerror
import Verif.Props.ExTimers
import Verif.Props.ExTorvalds
import Verif.Props.ExVirus
import Verif.Props.ExWealth
import Verif.Props.FSM
import Verif.Props.Files
import Verif.Props.Filter
import Verif.Props.FloatLock
import Verif.Props.Floats
import Verif.Props.Frames
import Verif.Props.FromConfig
import Verif.Props.GeneratorRun
import Verif.Props.GeneratorStart
import Verif.Props.Geo
import Verif.Props.Heap
import Verif.Props.Heapq
import Verif.Props.Identity
import Verif.Props.Idle
import Verif.Props.Interval
import Verif.Props.IterAgents
import Verif.Props.Launch
import Verif.Props.Literal
import Verif.Props.Liveness
import Verif.Props.Loading
import Verif.Props.Lockstep
import Verif.Props.Mail
import Verif.Props.MailPQueue
import Verif.Props.Mapping
import Verif.Props.MarkovRun
import Verif.Props.Messages
import Verif.Props.Nan
import Verif.Props.Neighbors
import Verif.Props.Nested
import Verif.Props.NetCreate
import Verif.Props.NetOps
import Verif.Props.Network
import Verif.Props.NewsRun
import Verif.Props.Origin
import Verif.Props.OwnRaise
import Verif.Props.OwnRun
import Verif.Props.PBackward
import Verif.Props.PFloats
import Verif.Props.PLiveness
import Verif.Props.PQueue
import Verif.Props.PRounds
import Verif.Props.PTies
import Verif.Props.Parallel
import Verif.Props.ParamsId
import Verif.Props.Plot
import Verif.Props.RabbitsEnd
import Verif.Props.RabbitsRun
import Verif.Props.Raises
import Verif.Props.Recover
import Verif.Props.Refine
import Verif.Props.Rename
import Verif.Props.Report
import Verif.Props.Rerun
import Verif.Props.Results
import Verif.Props.Rounds
import Verif.Props.RunLoop
import Verif.Props.Scheduler
import Verif.Props.Serialization
import Verif.Props.Serving
import Verif.Props.Simulation
import Verif.Props.Supers
import Verif.Props.TerrNet
import Verif.Props.TimersRun
import Verif.Props.Tools
import Verif.Props.Unflatten
import Verif.Props.Units
import Verif.Props.Unseen
import Verif.Props.Views
import Verif.Props.VirusSim
import Verif.Props.VirusStart
import Verif.Props.Waits
import Verif.Props.WealthRun
import Verif.Props.Web
import Verif.Props.WebPoll
import Verif.Spec.Calendar
import Verif.Spec.Policy
