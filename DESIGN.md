# Formal model of `soil` in Lean 4 — design

Source: `gsi-upm/soil` at the pinned commit in `/repo`. Everything below is a hand translation of that Python code; the
Python is never executed.

## Layout

* `lean/Verif/Basic/*` — time values, events, dictionaries (association lists with Python's order), values.
* `lean/Verif/Model/*` — function-by-function model. Every definition cites file and lines and states its simplifications.
* `lean/Verif/Spec/*` — independent specifications (event calendar, policies).
* `lean/Verif/Proofs/*` — helper lemmas and invariants.
* `lean/Verif/Props/*` — the property theorems (`Cnn_...`), each with an `example` that applies it to a concrete,
  non-trivial case. When the code violates the claim: `Cnn_..._false` (the negation, by a concrete witness or as a general
  statement of the defect) and `Cnn_..._partial` (what does hold).
* `properties.jsonl` — the properties; `MANIFEST.json` — the theorems of each; `seeded/LOG.jsonl` — wrong versions of the
  model that were tried and the theorems that failed.

## Trusted base

* The Lean 4.33 kernel. No axioms of our own, no `sorry`, no `native_decide`. The axioms of every listed theorem are in the
  last table; none uses more than `propext`, `Classical.choice` and `Quot.sound`.
* The translation from Python to Lean (comments give the lines).
* Dependencies modelled by their documented behaviour, not from their code (which is not installed here):
  * mesa (soil asks for `Mesa>=1.2`; the behaviour of 2.2, and of 1.2 where it is the same): `Model.next_id`,
    `BaseScheduler.add/remove/agents`, `DataCollector`. In particular `schedule._agents`, which soil hands to its own filters,
    is a collection that yields agents when iterated (it is a dictionary of ids before mesa 2.2; then `get_agents` of agents
    does not work at all). It iterates over a `weakref.WeakKeyDictionary`; iterating one while its size changes raises
    `RuntimeError` in most versions of Python (module IterAgents: the parameter `frozen`).
  * `random`: `random()` is an arbitrary rational in [0,1), `shuffle` an arbitrary permutation; `choices` is modelled from
    its code (cumulative weights and `bisect`), as are `bisect` and `heapq`.
  * `copy.deepcopy`, `itertools.product`, string methods: from their documentation.
  * networkx graphs: nodes in order, edges as pairs. File system: files and directories as a finite map. SQL tables: a text to
    which rows are appended.
* Simulated times and delays are rationals or `+inf` (`Verif.Time`); probabilities and weights are rationals. The module
  Floats models the default scheduler with Python's integers and rounded floats, and carries the main theorems over (C203);
  elsewhere rounding is not modelled, NaN only in module Nan, and `-inf` nowhere.
* User code (agent steps, state functions, handlers, reporters) is an arbitrary *function* of the whole visible state; it acts
  on the library only through the modelled API calls, returned as a list of operations in program order. Direct writes to
  private attributes (`schedule._queue`, ...) are outside the model.

## What is modelled

| model | code | remarks |
|---|---|---|
| `Model/Timed` | soil/time.py `Delay`, `DeadAgent`, `TimedActivation`, `ShuffledTimedActivation`, `OrderedTimedActivation` | arbitrary user code (a *host*), exceptions, shuffles; ghost activation log |
| `Model/RunLoop` | soil/simulation.py `_run_model`; soil/environment.py `BaseEnvironment.run` bounds | any environment (`Stepper`); fuel for the loop |
| `Model/PQueue` | soil/time.py `PQueueActivation` | the heap as a list sorted by `(when, key)` |
| `Model/Heapq` | CPython `heapq` (`heappush`, `heappop`, `heapreplace`) | the array version; shown equivalent to the sorted list |
| `Model/Lockstep` | soil/time.py `Lockstepper` | fuel for the inner loop |
| `Model/Simulation` | soil/simulation.py `Simulation`, `_collect_params`, `run`, `iter_from_py`, deferred runs; soil/__init__.py options | sequential branch of `run_parallel` |
| `Model/Coroutine` | soil/agents/__init__.py `decorate_generator_step`, `decorate_async_step`, `decorate_normal_func` | generators as automata |
| `Model/FSM` | soil/agents/fsm.py `MetaFSM`, `State`, `FSM` | state functions are arbitrary |
| `Model/Agents` | soil/agents/__init__.py `BaseAgent.step/die/_check_alive`, with Timed, Coroutine and FSM together | whole worlds of agents of all kinds |
| `Model/Attrs` | soil/agents/__init__.py `MetaAgent.__new__`, `BaseAgent.__init__` | class attributes by inheritance |
| `Model/Heap` | `copy.deepcopy` of class defaults in `BaseAgent.__init__` | objects and references |
| `Model/Random` | `random.choices`, `bisect`, `prob` | rationals for floats |
| `Model/Env` | soil/environment.py ids, `add_agent(s)`; dictionary access of agents and environments |  |
| `Model/Messages` | soil/agents/evented.py; soil/events.py; soil/environment.py `EventedEnvironment.broadcast` |  |
| `Model/Filter` | soil/agents/__init__.py `filter_agents`, `AgentView`; `NetworkAgent.iter_agents` | late binding of the lambdas is modelled |
| `Model/Network` | soil/agents/network_agents.py; soil/environment.py `NetworkEnvironment`; soil/network.py `find_unassigned` | node and edge attributes other than `agent` are not modelled |
| `Model/Data` | soil/datacollection.py; mesa `DataCollector`; `add_model_reporter`, `add_agent_reporter` | tables are not modelled |
| `Model/Nested` | soil/utils.py `flatten_dict`, `unflatten_dict`; soil/__init__.py `--set` |  |
| `Model/Serialization` | soil/serialization.py `with_source`, `name`, `deserializer`, templates | Jinja and YAML are functions |
| `Model/Files` | soil/utils.py `try_backup`, `safe_open`, `open_or_reuse`; soil/exporters.py |  |
| `Model/Distribution` | soil/agents/__init__.py `calculate_distribution`, `_from_distro`, `_from_fixed` |  |
| `Model/Builtin` | soil/agents/{SISaModel,IndependentCascadeModel,BassModel,CounterModel}.py |  |
| `Model/Parallel` | soil/utils.py `run_parallel`, `run_and_return_exceptions`; soil/simulation.py `run` with `num_processes` | processes as copies of the state |
| `Model/Frames` | soil/environment.py `agent_df`, `model_df` | pandas frames as lists of labelled rows |
| `Model/Loading` | soil/simulation.py `iter_from_file`, `iter_from_py`, `iter_from_config`, `run_from_file`, `do_not_run`, `from_config` | modules as lists of members; the import system as a function |
| `Model/Cli` | soil/__init__.py `main` | `argparse` results as a record |
| `Model/Views` | soil/agents/__init__.py `AgentView`; soil/environment.py `agent`, `count_agents`, `__iter__` | agents equal only to themselves |
| `Model/NetCreate` | soil/environment.py `NetworkEnvironment.__init__`, `create_network`, `_check_agent_nodes`; soil/network.py `from_topology`, `from_params`; soil/simulation.py `_run_iters_for_params` (networks only) | readers and generators as functions; graphs by their nodes, the attribute `agent` and edges |
| `Model/Report` | soil/decorators.py `report`; soil/environment.py `__new__`, `step` and `log`; soil/agents/__init__.py `log` | getters and methods do not change the model; converting messages to strings does not raise |
| `Model/Identity` | soil/agents/__init__.py equality, `__hash__`, `from_dict`, level; soil/environment.py constructors (parameters) | values compared as `Val`; the default of `network_params` is `None` instead of an empty dictionary |
| `Model/Solo` | soil/time.py, soil/environment.py (one agent that the others leave alone) | conditions on the other agents as hypotheses |
| `Model/ExTimers` | examples/custom_timeouts/custom_timeouts_sim.py, examples/random_delays/random_delays_sim.py | log messages left out; random delays as arbitrary functions |
| `Model/ExPubs` | examples/pubcrawl/pubcrawl_sim.py | log messages left out; the result of shuffling and of `random()` as arbitrary functions; `get_agents` as in C47 |
| `Model/ExWealth` | examples/mesa/wealth.py, examples/mesa/social_wealth.py (agents, `compute_gini`); examples/markov_chains/markov_sim.py `gini` | rational numbers; grid and network as functions; results of `random.choice` arbitrary |
| `Model/ExVirus` | benchmarks/virusonnetwork/soil_step.py, soil_states.py, mesa_basic.py: the agents | agents are their statuses; schedule, order of neighbours and random numbers are arbitrary inputs; the servers, the networks and the reporters are left out |
| `Model/ExRabbits` | examples/rabbits/rabbits_basic_sim.py: all; examples/rabbits/rabbit_improved_sim.py: the states of females | rabbits are numbered in the order they were added, with one node each; schedule and random numbers are arbitrary inputs; `self.model.agents[...]` with an agent raises TypeError (mesa's AgentSet); log messages left out |
| `Model/ExGenerator` | examples/custom_generator/generator_sim.py `mygenerator` | the results of `random.choice` are arbitrary inputs |
| `Model/ExNews` | examples/newsspread/newsspread_sim.py: the agents | schedule and random numbers are arbitrary inputs; a probability that is not given is a tuple, with which `prob` raises |
| `Model/Geo` | soil/agents/geo.py; soil/agents/network_agents.py `subgraph` | exact rational coordinates in the plane; the k-d tree is replaced by comparing squared distances |
| `Model/ExTerror` | examples/terrorism/TerroristNetworkModel_sim.py: the agents, the caches of centralities; `update_relationships` is in TerrNet | rational numbers; centralities, powers, schedule and random numbers are arbitrary inputs |
| `Model/ExMarkov` | examples/markov_chains/markov_sim.py: the drivers, the grid, `SquareCityEnv`; not `NamedCityEnv` | rational travel times; multigraph, schedule and random numbers are arbitrary inputs; mesa `NetworkGrid` as lists of agents per node |
| `Model/ExCars` | examples/cars/cars_sim.py: drivers, passengers, `City` | natural times; code between two `await`s is one activation; schedule and random results are arbitrary inputs; mesa `MultiGrid` as the cell of each agent |
| `Model/ExNoop` | benchmarks/noop: the soil versions with both schedulers, mesa_simulation.py; not the soilent versions | shuffles and random keys are arbitrary inputs |
| `Model/Debugger` | soil/debugging.py: the commands of `Debug`; not `set_trace`, `post_mortem`, the options of pdb | breakpoints of bdb at the beginning of functions; values of variables and attributes of classes are arbitrary inputs |
| `Model/Database` | soil/exporters.py: `SQLite`, `get_dc_dfs`, the paths of `Exporter`; soil/analysis.py: `read_sql`; os.path (posix) | tables as columns and rows; values are texts or opaque; no types of columns; pandas `to_sql`, `read_sql_table`, `pivot` as far as used |
| `Model/Web` | soil/web/__init__.py: `SocketHandler` (messages, capture of the log), `ModularServer`, `main`; not the templates and scripts of the page, soil/web/run.py (which imports modules that do not exist) | threads and event loop interleave at operations on the buffer; `io.StringIO`, `logging` (propagation), tornado (exceptions in `on_message` close the connection) as far as used; PyYAML < 6 |
| `Model/Plot` | soil/analysis.py: `plot`; soil/environment.py: `model_df`; soil/visualization.py: `JupyterPage` (parameters, model, what is drawn), `Controller`; not the drawing itself | pandas (`reset_index`, `drop`, `plot`, `value_counts`) and solara (`use_state`, `use_memo`) as far as used |
| `Model/Convert` | soil/simulation.py: `to_dict`, `to_yaml` (the value that is dumped); soil/serialization.py: `serialize_dict`, `deserializer` | values are atoms, lists and dictionaries; `repr` and `name` are inputs; a second model with lists on a heap; not the text of YAML |
| `Model/Declare` | soil/agents/fsm.py: `state`, `default_state`, `MetaFSM.__new__` (with states as shared objects); soil/agents/__init__.py: `custom`, `BaseAgent.w`, `MetaAgent.__new__` for what `type` is given | states are in a heap; the module of a class made by `type` below `ABCMeta` is `abc` (CPython) |
| `Model/Liveness` | — (theorems about the modules above) | infinite executions are all the finite prefixes `h ++ replicate n step` |
| `Model/NetOps` | soil/agents/network_agents.py: `subgraph`, `add_edge` with attributes; soil/environment.py: `NetworkEnvironment.add_agents`; `populate_network` with classes that drop `node_id` (examples/mesa/social_wealth.py) | the effect of criteria is a predicate; attributes of edges are a function of the pair |
| `Model/Tools` | soil/utils.py: `timer`, `int_seed`; soil/__init__.py: `easy`; soil/debugging.py: `Debug.__init__`, `set_trace`, `post_mortem`; soil/network.py: `dump_gexf`; soil/exporters.py: `DryRunner` | readings of the clock are a function; `fnmatch` without brackets; UTF-8 is that of Lean's core library |
| `Model/PLiveness` | — (theorems about PQueue) | as in Liveness |
| `Model/WebPoll` | — (theorems about Web) | the chains of calls of `update_logging` are counted |
| `Model/Floats` | soil/time.py `TimedActivation` once more, with Python's `int` and `float`; `BaseAgent.at` | binary64 with rounding to nearest, ties to even; no NaN, no `-inf`; an integer too large for a float becomes `inf` instead of `OverflowError` |
| `Model/PTies` | soil/time.py `PQueueActivation` once more, with a comparison of entries that may raise; heapq | ties of time and key of two different agents raise `TypeError`; the heap is left as the C implementation leaves it |
| `Model/FromConfig` | soil/agents/__init__.py `from_config`, `_from_fixed`; soil/config.py | whether the classes of soil/config.py exist is a parameter; their fields are those that the function reads; classes of agents as numbers |
| `Model/FloatLock` | soil/time.py `Lockstepper` with the numbers of Python | as `Lockstep`; numbers as in `Floats` |
| `Model/IterAgents` | soil/agents/__init__.py `iter_agents`, `get_agents`, `filter_agents` as loops whose body changes the agents | the body is an arbitrary function; whether the collection may change its size during the loop is a parameter |
| `Model/ExRabbits2` | examples/rabbits/rabbit_improved_sim.py, all of it, inside the scheduler | as user code of `Timed`; log messages are left out; names of nodes are the numbers of the rabbits |
| `Model/RunInv` | (lemmas only) invariants of the scheduler together with the world |  |
| `Model/ExRabbits3` | (theorems only) notes, network and accidents of the improved rabbits |  |
| `Model/ExRabbits4` | (theorems only) exceptions that escape from the improved rabbits, small runs |  |
| `Model/Mapping` | soil/agents/__init__.py:105, 184-212 and the methods inherited from `collections.abc.MutableMapping` |  |
| `Model/Mail` | soil/agents/evented.py:9-55, soil/environment.py:412-432, soil/events.py inside the scheduler, with arbitrary user code | identities (`uuid4`) are counted; `_processed` is not modelled; the polling loops of `received` and `ask` are user code here (see Messages) |
| `Model/MailPQueue` | the same inside `PQueueActivation`, soil/time.py:43-118 | as Mail; a step looks at a bounded number of activations |
| `Model/Literal` | soil/serialization.py:165-196, 218-273 (`serialize`, `deserialize` with a value); soil/agents/__init__.py:368-382 (`_serialize_type`, `_deserialize_type`) | `repr` and `ast.literal_eval` for None, bool, int, infinity, str, list, tuple, dict; other floats, sets and bytes are not modelled |
| `Model/Asking` | soil/agents/evented.py:33-42 (`ask`), as a coroutine of an agent inside Mail | the asker is activated by the scheduler only (not also by hand); everybody else does anything |
| `Model/PFloats` | soil/time.py:43-118 `PQueueActivation` with Python numbers | The heap scheduler of `PQueue` once more with integers and rounded binary64 numbers (`Floats`). Executions in which no delay is lost are shown to be executions of the exact scheduler. |
| `Model/Serving` | soil/agents/evented.py:16-28 (`received`), called in a loop by an agent inside Mail | the others may do anything, even change the local variable of the loop; `process=True`, no explicit expiration |
| `Model/Supers` | soil/agents/__init__.py:28-54, 64-82 (wrappers around `step`), with steps that call each other | Suspended generators are suspension points together with what to run next; recursion of calls is bounded by fuel, which is any number. |
| `Model/Interval` | soil/time.py:35-40, soil/environment.py:88-102 (`default_interval`) | attributes of class and instance as dictionaries; only what concerns the interval |
| `Model/VirusSim` | benchmarks/virusonnetwork/{soil_step,soil_states,_config}.py inside Timed and RunLoop; `RandomActivation` of mesa for comparison | random numbers and shuffles are arbitrary |
| `Model/Nan` | soil/time.py:43-183 and soil/simulation.py:248-278 with delays that may be NaN | TimedActivation in full as in Timed (several agents, operations, shuffling, exceptions) over rationals, inf and nan; PQueueActivation without shuffling and with agents that only reply; no rounding, no `-inf` |
| `Model/ExRabbits5` | examples/rabbits/rabbit_improved_sim.py:97-120 | proofs only (families of C210) |
| `Model/ParamsId` | soil/simulation.py:157-167 (identifiers of combinations) | values are literals (Literal); SHA-256 is an arbitrary function from texts to numbers |
| `Model/ExNewsRun` | examples/newsspread/newsspread_sim.py:85-133, soil/environment.py:390-402 | only the choice of the kinds; rational numbers instead of floats |
| `Model/Results` | soil/simulation.py:135-280, soil/environment.py:40-202, soil/exporters.py:96-160 together | combines Simulation, RunLoop, Data, Plot, ParamsId and Database; combinations without reporters of their own; everything is written at the end |
| `Model/CliMain` | soil/__init__.py:30-282 (`main`, `easy`): the flow; with `Sim.run` for the options `--seed`, `--iterations`, `--set` | loading, `--set`, `to_yaml` and `run` are given by their results; not modelled: unknown `--level`, `--module`, the parser itself |
| `Model/Rounds` | mesa's `BaseScheduler` and `RandomActivation` as a specification for soil/time.py:121-183 | mesa is not in `/repo`; only for a fixed set of agents that return nothing |
| `Model/ExTorvalds` | examples/torvalds_sim.py with soil/agents/CounterModel.py:11-26 in the scheduler | the network is given by the names of its nodes and the numbers of neighbours |
| `Model/ExProgrammatic` | examples/programmatic/programmatic_sim.py with soil/agents/fsm.py:142-156 | the shuffles take their random numbers from another source than the agents |
| `Model/BuiltinRun` | soil/agents/SISaModel.py:70-110, soil/agents/IndependentCascadeModel.py:14-30 with soil/agents/fsm.py:142-156 in the scheduler | the id of an agent is its number; `sentimentCorrelation` is left out |
| `Model/Backward` | soil/time.py:138-183 with negative delays | no new definitions of code; -inf is not a delay |
| `Model/PBackward` | soil/time.py:67-113 with negative delays | no new definitions of code; -inf is not a delay |
| `Model/ExSocial` | examples/mesa/social_wealth.py:17-111, examples/mesa/mesa_sim.py, with soil/environment.py:189-202, 390-406 and the scheduler | mesa's `MultiGrid` and `DataCollector` are specifications; the messages are left out; the second random number of a turn is skipped if it is not needed |
| `Model/MarkovRun` | examples/markov_chains/markov_sim.py:45-73, 98-117 with soil/time.py:150-183, 206-228 | positions and random choices are inputs; the data collector is left out |
| `Model/CrawlRun` | examples/pubcrawl/pubcrawl_sim.py in soil/time.py | the pub crawl in the scheduler |
| `Model/NewsRun` | examples/newsspread/newsspread_sim.py:14-71 in soil/time.py:43-181 | the viewers of ExNews in both schedulers; random numbers are inputs |
| `Model/Raises` | soil/time.py:43-183 | lemmas: when an agent that raises is reached in a whole run; no definitions of its own |
| `Model/TerrNet` | examples/terrorism/TerroristNetworkModel_sim.py:240-299 in soil/time.py:43-181 | hops, distances, weights and random numbers are inputs; the centralities too |
| `Model/VirusStart` | benchmarks/virusonnetwork/soil_step.py:26-59, soil_states.py:20-54, mesa_basic.py:16-109 | the random graph is left out; the sample of nodes is an input |
| `Model/BuiltinPRun` | soil/agents/SISaModel.py, soil/agents/IndependentCascadeModel.py in soil/time.py:43-118 | whole simulations of both models with PQueueActivation; no definitions of the code of its own (popPHost is in BuiltinRun) |
| `Model/CrawlPRun` | examples/pubcrawl/pubcrawl_sim.py in soil/time.py:43-118 | the pub crawl with PQueueActivation, by a transfer to the default scheduler |
| `Model/WealthRun` | examples/mesa/wealth.py:8-83 | mesa's MultiGrid (torus), RandomActivation, DataCollector and BatchRunner are specified; rational instead of floating-point numbers |
| `Model/CarsEnd` | examples/cars/cars_sim.py | What each activation of a driver or passenger may do, and the invariant that bounds the time until the end; the code itself is in ExCars. `Ride.acts` counts the activations of a run. |
| `Model/CarsRun` | examples/cars/cars_sim.py:64-75, 95-240; soil/time.py:94-182 | Drivers and passengers (ExCars) as agents of the scheduler; what `random` draws is a function of the number of activations, or of shuffles, so far (any function) |
| `Model/Refine` | soil/time.py:43-183; soil/simulation.py:236-280 | The same user code in both schedulers; user code does not read the queue or `model.running`, adds nobody during steps and asks for no negative delays |
| `Model/CarsPQueue` | examples/cars/cars_sim.py:64-75, 95-240; soil/environment.py:95-101; soil/time.py:43-118 | The agents of CarsRun with the other scheduler |
| `Model/Converse` | soil/time.py:43-183 | Nothing new is modelled: the other direction of Refine |
| `Model/Driver` | soil/time.py:43-225; soil/environment.py:189-202; soil/simulation.py:274-278 | Code around a scheduler is a function from its local variables, what it reads of the scheduler and the world to its next action |
| `Model/Launch` | soil/simulation.py:80-133, 367-368; soil/environment.py:216-224 | The logger and the `id` are not modelled; paths are not normalised (`..`); what a name of a model stands for is a parameter |
| `Model/RabbitsRun` | examples/rabbits/rabbits_basic_sim.py: all agents inside TimedActivation | log messages and reporters left out; numbers drawn per activation |
| `Model/TimersRun` | examples/custom_timeouts/custom_timeouts_sim.py, examples/random_delays/random_delays_sim.py: whole simulations with either scheduler | log messages and the network (not used by the agents) left out; expovariate returns any numbers that are not negative |
| `Model/GeneratorRun` | examples/custom_generator/generator_sim.py: `GeneratorEnv` (whole simulations), soil/agents/CounterModel.py: `CounterModel` | the random numbers of the generator, of the classes, of the nodes and of the shuffles are arbitrary; the graph is as in ExGenerator, the agents as in Network/NetOps, the steps as in ExTorvalds |
| `Model/OwnRun` | soil/agents/CounterModel.py: all classes inside either scheduler; user code that changes only its own agent | the network does not change, so the number of neighbours is fixed; random numbers are used for the order only |
| `Model/RabbitsEnd` | examples/rabbits/rabbit_improved_sim.py: all (whole simulations), soil/simulation.py: `_run_model` | the model is the one of ExRabbits2 (theorems only) |
| `Model/Births` | soil/simulation.py: `_run_model`, soil/time.py: `TimedActivation` | the model is the one of Timed and RunLoop (theorems only) |
| `Model/OwnRaise` | soil/time.py: `TimedActivation.step` (exceptions) | the model is the one of OwnRun (theorems only) |
| `Model/GeneratorStart` | examples/custom_generator/generator_sim.py: `init` | the model is the one of GeneratorRun (theorems only) |
| `Model/Units` | soil/time.py: both schedulers; soil/simulation.py: `Simulation._run_model` | the models are those of Timed, PQueue and RunLoop; this file only has the change of unit |
| `Model/Origin` | soil/time.py: both schedulers; soil/simulation.py: `Simulation._run_model` | the models are those of Timed, PQueue and RunLoop; this file only has the change of origin |
| `Model/Rename` | soil/time.py: both schedulers; soil/simulation.py: `Simulation._run_model` | the models are those of Timed, PQueue and RunLoop; this file only has the renaming |
| `Model/Unseen` | soil/time.py: both schedulers; soil/simulation.py: `Simulation._run_model` | the models are those of Timed, PQueue and RunLoop; this file only has the correspondence of programs |
| `Model/Continue` | soil/simulation.py: `Simulation._run_model` | the model is the one of RunLoop (theorems only) |
| `Model/Idle` | soil/time.py: `TimedActivation`; soil/simulation.py: `Simulation._run_model` | the models are those of Timed and RunLoop (theorems only) |

Not modelled: the scripts of the web page, tqdm, timers,
wall-clock time, `multiprocessing` (`num_processes` is never passed on by `Simulation`), drawing itself,
SQL engines (except what `Database` says), and the examples not listed in the table of modules.

## Per property

Status as in `MANIFEST.json`. "violated" means that a `_false` theorem shows that the code does not have the property.

| id | property | status | what is modelled | how it is proved | theorems in |
|---|---|---|---|---|---|
| C01 | Simulated time never goes backwards | proved | `TimedActivation` (add/_schedule/step) over an arbitrary host (user code + shuffle); histories = lists of commands | invariant: queue sorted, strictly increasing bucket times, head time = clock; induction over histories | `Props.Recover`, `Props.Scheduler` |
| C02 | Agents wake exactly when they asked to | proved | same, ghost activation log | refinement of the log to an event calendar; projection to one agent | `Props.Recover`, `Props.Scheduler` |
| C03 | No agent is lost or duplicated by the scheduler | proved | same | queue contents = calendar (as multiset) after every history | `Props.Scheduler` |
| C04 | One step runs exactly the agents due at the earliest pending instant | proved | same | per-step theorem: activations of one step ~ calendar entries at minimum time | `Props.Scheduler` |
| C05 | OrderedTimedActivation is first-scheduled first-run | proved | unshuffled instance | order of activations = order of scheduling events | `Props.Scheduler` |
| C06 | No agent acts twice at the same instant | proved | same as C02 | from calendar + positive effective delay | `Props.Scheduler` |
| C07 | An exhausted schedule is quiescent | proved | same | step on exhausted state is the identity (host with no new additions) | `Props.Scheduler` |
| C08 | schedule.add(agent, when=t) schedules the first activation at t | partial (violated) | `add(when=)` | witness for Timed and PQueue; partial: first activation at the clock | `Props.Scheduler` |
| C09 | Agents added while the simulation is running are run | proved | same as C04 | added-at-now bucket is a new head after pop; corollary of calendar | `Props.Scheduler` |
| C10 | An exception in one agent does not lose the others | partial (violated) | exceptions as outcome of a host step | witness: bucket remainder lost; partial: other buckets untouched | `Props.Recover`, `Props.Scheduler` |
| C11 | PQueueActivation wakes agents exactly when they asked to | proved | `PQueueActivation` with sorted-list heap, fuel for the inner loop | calendar refinement again | `Props.PQueue` |
| C12 | PQueueActivation.add keeps the agents already scheduled | partial (violated) | `PQueueActivation.add` at time ≠ 0 | general statement of eviction; partial at time 0 | `Props.PQueue` |
| C13 | Both schedulers give every agent the same timeline | proved | both schedulers | both refine the same per-agent timeline | `Props.PQueue` |
| C14 | Lockstepper covers exactly one interval per step | proved | `Lockstepper.step` with fuel | loop invariant; divergence theorem for empty queue | `Props.Lockstep` |
| C15 | agent.at(t) wakes the agent at t | partial (violated) | `at` with scheduler clock and with lockstep clock | theorem for Timed; witness for Lockstepper | `Props.Lockstep` |
| C16 | max_time is an open bound on activity | proved | `_run_model` loop with fuel | loop invariant over the calendar | `Props.RunLoop` |
| C17 | max_steps is an exact bound on steps | proved | same | loop invariant on `steps` | `Props.PQueue`, `Props.RunLoop`, `Props.Simulation` |
| C18 | A bounded simulation terminates | proved | same | measure: Σ over pending ⌈(max_time − t)/δ⌉ | `Props.RunLoop` |
| C19 | A simulation ends when all its agents are done | partial (violated) | same | exhausted Timed state loops for every fuel; PQueue variant terminates | `Props.PQueue`, `Props.RunLoop` |
| C20 | The command line respects the simulation's own limits | partial (violated) | `main` argument handling + `dataclasses.replace` | witness + partial when the flags are given | `Props.Simulation` |
| C21 | Generator steps are resumed, one segment per activation | proved | `decorate_generator_step`, generator = arbitrary automaton | simulation by induction over segments | `Props.Coroutine` |
| C22 | A failing generator step restarts cleanly | partial (violated) | same with raising segments | witness: one activation is swallowed | `Props.Coroutine` |
| C23 | FSM return value contract | partial (violated) | `FSM.step` return parsing on a value type | case theorem; witness for 2-char ids | `Props.FSM` |
| C24 | An FSM agent is always in a declared state | partial (violated) | FSM agents over arbitrary state functions | invariant given only own states are returned; witness with a foreign state object | `Props.Agents` |
| C25 | State cannot be forced after the start | partial (violated) | `set_state` | case analysis | `Props.FSM` |
| C26 | Dead agents do not act | partial (violated) | integrated world (agents of all kinds inside the scheduler) | invariant for FSM/function states; witnesses for plain and suspended agents | `Props.Agents` |
| C27 | Stepping a dead agent always reports it | partial (violated) | generator wrapper + `_check_alive` | alternation theorem | `Props.Agents` |
| C28 | States are inherited and overridable | partial (violated) | `MetaFSM.__new__` | lookup lemma; witness for default override | `Props.FSM` |
| C29 | Attribute initialisation precedence | partial (violated) | `MetaAgent.__new__`, `BaseAgent.__init__` | dictionary lemmas | `Props.AgentOps`, `Props.Attrs` |
| C30 | Agents do not share mutable defaults | proved | heap of object ids with `deepcopy` fresh allocation | aliasing invariant | `Props.Heap` |
| C31 | Automatic ids are unique | proved | `current_id`, `add_agent` | invariant over histories; witness for explicit ids | `Props.Env` |
| C32 | Agents and environments behave as dictionaries | partial (violated) | attribute dictionaries | dictionary laws | `Props.Env` |
| C33 | prob(p) respects its bounds | proved | `prob` | arithmetic | `Props.Env` |
| C34 | Messages are handled once, in order | partial (violated) | `process_messages` | fold induction | `Props.Messages` |
| C35 | Failure of a handler does not duplicate deliveries | partial (violated) | same with raising handler | witness/general; partial | `Props.Messages` |
| C36 | Broadcast reaches everyone else once | partial (violated) | `broadcast`, expiry | list lemmas | `Props.Messages` |
| C37 | received() returns the messages | partial (violated) | `received` | returns the cleared list; partial for process=False | `Props.Messages` |
| C38 | ask() returns the reply | partial (violated) | `ask` | sender/falsy-reply witnesses; partial truthy replies | `Props.Messages` |
| C39 | Agents and nodes stay linked one to one | partial (violated) | graph + placement ops | invariant over ops given fresh `len(G)`; witness for collisions | `Props.Network` |
| C40 | A node is created only when the network is full | partial (violated) | `NetworkAgent.__init__` with `choices` | witness; partial | `Props.Network` |
| C41 | populate_network fills the network | partial (violated) | `populate_network` | induction | `Props.Network` |
| C42 | find_unassigned finds a free node iff there is one | proved | `find_unassigned`, `add_node` | list induction, all shuffles | `Props.Network` |
| C43 | Neighbours are the living agents on adjacent nodes | proved | `iter_agents`, `count_neighbors` | set-style membership theorem | `Props.Neighbors` |
| C44 | Death removes an agent from everything | partial (violated) | `die` | composition of modelled ops | `Props.Neighbors` |
| C45 | add_edge links exactly the two agents | partial (violated) | `add_edge` | graph lemmas | `Props.Neighbors` |
| C46 | An agent can look up others by id | partial (violated) | `iter_agents(unique_id=)` | witness for network agents; theorem for plain | `Props.Filter` |
| C47 | get_agents returns the conjunction of its criteria | partial (violated) | `filter_agents` with late-binding closures | exact characterisation + witness; partial ≤1 attribute | `Props.Filter` |
| C48 | limit truncates | proved | `limit` | list lemma | `Props.Filter` |
| C49 | The matrix is the full cartesian product | proved | `_collect_params` | product specification | `Props.Simulation` |
| C50 | Fixed parameters apply to every matrix combination | partial (violated) | same | witness + exact characterisation | `Props.Simulation` |
| C51 | Iteration seeds are distinct and reproducible | proved | `_get_env` seed | string injectivity | `Props.Simulation` |
| C52 | One result per combination and iteration, in order | proved | `run`, `_run_iters_for_params` | list induction | `Props.Simulation` |
| C53 | Exporter protocol | proved | same, event trace | list induction | `Props.Simulation` |
| C54 | Deferred simulations run the configured combinations once | partial (violated) | `_AVOID_RUNNING` queue, `_iter_queued` | counts; partial without matrix | `Props.Simulation` |
| C55 | Loading a broken file has no effect on later loads | partial (violated) | `iter_from_py` with failures | witness; partial | `Props.Simulation` |
| C56 | Reporters belong to their parameter set | partial (violated) | `_get_env` reporter update | witness; partial | `Props.Simulation` |
| C57 | One row of model data per step | proved | `BaseEnvironment.__init__/step`, `DataCollector` | induction over steps | `Props.Data` |
| C58 | Agent reporters can be limited to a type | partial (violated) | self-referential lambda | divergence for every fuel; partial without type | `Props.Data` |
| C59 | flatten/unflatten round trip | proved | `flatten_dict`/`unflatten_dict` | tree induction | `Props.Nested` |
| C60 | Source files are registered only while in use | proved | `with_source` registry | induction over nested programs | `Props.Serialization` |
| C61 | Class names round-trip | partial (violated) | `name`/`deserializer` | witness for shadowing; partial | `Props.Serialization` |
| C62 | Template expansion covers every combination | proved | `params_for_template` | product lemmas | `Props.Serialization` |
| C63 | Backups preserve previous results | partial (violated) | `try_backup`, `safe_open` | witness for same-second; partial distinct stamps | `Props.Files` |
| C64 | No dump means no files | proved | exporters over a file-system map | case analysis | `Props.Files` |
| C65 | Distribution thresholds partition the unit interval | partial (violated) | `calculate_distribution` | list induction | `Props.Distribution` |
| C66 | A distribution yields exactly n agents | partial (violated) | `_from_distro` | arithmetic | `Props.Distribution` |
| C67 | --set updates exactly one parameter | partial (violated) | `--set` loop | tree induction | `Props.Nested` |
| C68 | add_agents adds exactly k agents of the given classes | proved | `add_agents` | list induction | `Props.Env` |
| C69 | SISa: discontent spreads through neighbours | partial (violated) | SISa state functions | reachability / impossibility | `Props.Builtin` |
| C70 | Independent cascade: awareness spreads through neighbours | partial (violated) | ICM | impossibility | `Props.Builtin` |
| C71 | Queries do not change their arguments | partial (violated) | `filter_agents` arguments as objects | heap argument; witness for `state=` | `Props.Filter` |
| C72 | Agent data is kept for every step | partial (violated) | `DataCollector.collect` with step numbers | induction over collections; witness for repeated step numbers | `Props.Data` |
| C73 | Expanding a template does not change its configuration | partial (violated) | `expand_template` configuration as a dictionary | dictionary lemmas; witness for `method` | `Props.Serialization` |
| C74 | Results of different iterations do not overwrite each other | partial (violated) | exporter file names | injectivity; witness for equal ids | `Props.Files` |
| C75 | Errors while writing a result reach the caller unchanged | partial (violated) | `open_or_reuse`, `safe_open` with exceptions | case analysis over exceptions | `Props.Files` |
| C76 | Every exporter shipped with soil works | partial (violated) | the exporter classes | case analysis; witnesses | `Props.Files` |
| C77 | The state of a kind wins over the default state | partial (violated) | `_from_distro`, `_from_fixed` states | dictionary lemmas; witness | `Props.Distribution` |
| C78 | The topology setting of one kind does not affect others | partial (violated) | `_from_distro` loop with the reassigned `topology` | induction over the loop; witness | `Props.Distribution` |
| C79 | Agents of the Bass model can step | partial (violated) | `BassModel` name lookup | lookup lemmas; the step always raises | `Props.Builtin` |
| C80 | Counters count | proved | `CounterModel` | induction over steps | `Props.Builtin` |
| C81 | SISa agents have parameters of their own | partial (violated) | `SISaModel` defaults | sharing of class attributes; witness | `Props.Builtin` |
| C82 | The agents of the scheduler are those added and not removed | proved | `add`/`remove` of the scheduler | induction over histories | `Props.Recover` |
| C83 | Setting model.running to False ends the run | proved | `_run_model` with `running` | case analysis of the loop | `Props.RunLoop` |
| C84 | A plain step tells the scheduler what its function returned | proved | `decorate_normal_func` | case analysis | `Props.AgentOps` |
| C85 | A new FSM agent is in the given or the default state | proved | `FSM.__init__` | case analysis | `Props.AgentOps` |
| C86 | add_agent schedules, die unschedules | proved | `AOp.apply` in the integrated world | case analysis of operations | `Props.AgentOps` |
| C87 | The head of the priority queue is the earliest pending entry | proved | `heapq` array algorithms | heap invariant, refinement to the sorted list | `Props.Heapq` |
| C88 | Without shuffling PQueueActivation runs the agents of an instant in order of id | proved | `PQueueActivation(shuffle=False)` | order of activations from sortedness | `Props.Heapq` |
| C89 | add_agent adds exactly one agent of the class, or none if its constructor raises | proved | `add_agent` with raising constructors | induction over histories | `Props.Additions` |
| C90 | received and ask wait exactly as long as asked | partial (violated) | `received`, `ask` deadlines | arithmetic over the waiting loop | `Props.Waits` |
| C91 | Every parameter of a combination reaches the model | partial (violated) | parameter passing of `_get_env` | dictionary lemmas | `Props.Parallel` |
| C92 | The number of processes does not change the outcome | partial (violated) | `run_parallel` sequential and with processes | refinement; witness for shared state | `Props.Parallel` |
| C93 | num_processes is respected | partial (violated) | `num_processes` in `Simulation.run` | witness | `Props.Parallel` |
| C94 | Running a Simulation object again gives the same environments | partial (violated) | `Simulation.run` twice | state of the simulation object as a record | `Props.Rerun` |
| C95 | agent_df labels the data of agents with the time of collection | partial (violated) | `agent_df` | induction over collections; witness for levels | `Props.Frames` |
| C96 | Explicit arguments win over the file, and the rest comes from the file | proved | `iter_from_py`/`from_config` with arguments | dictionary lemmas | `Props.Loading` |
| C97 | dir_path defaults to the folder of the configuration | partial (violated) | `dir_path` handling | case analysis; witness | `Props.Loading` |
| C98 | Loading leaves the interpreter as it was | partial (violated) | `sys.path`, `_AVOID_RUNNING`, queue | state before and after; witness | `Props.Loading`, `Props.NetCreate` |
| C99 | Files that cannot be loaded are reported | partial (violated) | `iter_from_file` | case analysis; witness | `Props.Loading` |
| C100 | run_from_file runs the simulations of the files | partial (violated) | `run_from_file` | the call always fails; witness | `Props.Loading` |
| C101 | Settings not mentioned on the command line keep their values | partial (violated) | `main` and `dataclasses.replace` | case analysis over options; witness | `Props.Cli` |
| C102 | Options given on the command line take effect | partial (violated) | same | case analysis over options; witness | `Props.Cli` |
| C103 | Each exporter asked for is used once | partial (violated) | exporter list of `main` | list lemmas; witness | `Props.Cli` |
| C104 | Unflattening loses no value | partial (violated) | `unflatten_dict` | induction over paths and keys; witness | `Props.Unflatten` |
| C105 | Looking up one agent | partial (violated) | `agent`, `count_agents`, `AgentView.one` | from C47; list lemmas; witness | `Props.Views` |
| C106 | The agents of an environment are a mapping from ids | partial (violated) | `AgentView` as a mapping | case analysis; negation for all collections | `Props.Views` |
| C107 | The network of an environment is the one asked for | partial (violated) | `NetworkEnvironment.__init__`, `create_network`, `from_topology`, `from_params` | case analysis over sources; string lemmas; witnesses | `Props.NetCreate` |
| C108 | A new environment is consistent | partial (violated) | constructor, `_check_agent_nodes`, `populate_network` | invariant of the check loop; C41 and a counting argument | `Props.NetCreate` |
| C109 | Iterations do not influence each other through the network | partial (violated) | environments of the iterations of one combination | induction over iterations; negation for all histories of deaths and edges | `Props.NetCreate` |
| C110 | Topologies can say which agent is on a node | partial (violated) | `_check_agent_nodes` with `agent_id` | invariant over all steps of `populate_network`; negation | `Props.NetCreate` |
| C111 | Marked members are reported | partial (violated) | `@report` and the loop of `__new__` | columns of the collector (C57), by induction over members; negation for all marked methods | `Props.Report` |
| C112 | Logging does not change what a simulation does | partial (violated) | `log` of agents and environments, message of `step` | induction over code and over steps; negations for all levels | `Props.Report` |
| C113 | Agents from dictionaries | partial (violated) | `from_dict` | filtering of the entries; negation for all dictionaries with other entries | `Props.Identity` |
| C114 | Equality of agents | partial (violated) | `Mapping.__eq__`, `__hash__` | counting argument on the public keys; negation for all agents | `Props.Identity` |
| C115 | Parameters become attributes of the environment | partial (violated) | constructors of environments | induction over parameters; negation for read-only names | `Props.Identity` |
| C116 | Log level of an agent class | partial (violated) | `MetaAgent.__new__`, `BaseAgent.__init__` | induction over the class body; negation for all bodies | `Props.Identity` |
| C117 | The Fibonacci agent runs at Fibonacci numbers | proved | `Fibonacci`, FSM and scheduler | invariant of an isolated agent; induction on the activations | `Props.ExTimers` |
| C118 | The odd agent runs at odd times | partial (violated) | `Odds`, FSM and scheduler | invariant of an isolated agent; negation by a run | `Props.ExTimers` |
| C119 | Pings and pongs | proved | `MyAgent`, FSM and scheduler | invariant of an isolated agent; induction on the pongs left | `Props.ExTimers` |
| C120 | Pubs are never overcrowded | proved | `CityPubs`, `Patron`, `Police` | invariant by induction over histories | `Props.ExPubs` |
| C121 | Occupancy counts the patrons inside | partial (violated) | same | invariant (everybody has only an edge to itself), negation for all runs | `Props.ExPubs` |
| C122 | Befriending connects two patrons | partial (violated) | same | same invariant, negation for all runs | `Props.ExPubs` |
| C123 | The life of a patron | proved | same | invariant on each patron, monotonicity | `Props.ExPubs` |
| C124 | Who goes home leaves the pub | partial (violated) | same | invariant, negation for all runs | `Props.ExPubs` |
| C125 | Money is conserved | proved | `MoneyAgent`, `SocialMoneyAgent` | invariant by induction over histories | `Props.ExWealth` |
| C126 | The Gini coefficient | proved | `compute_gini`, `gini` | induction on sorted lists, permutations | `Props.ExWealth` |
| C127 | The virus model is safe | proved | one activation of each version as a function of statuses, neighbours and random numbers | invariant of one activation (what may change), then induction over the run; the spread along edges for every closed group of agents | `Props.ExVirus` |
| C128 | The versions of the virus model agree | partial (violated) | the activations of the three versions | the activation functions are equal for all inputs, so are the runs; a run of two agents for which the version with states differs | `Props.ExVirus` |
| C129 | Litters have eight to eleven babies | proved | births, matings, ageing, accidents of the basic rabbits | invariant of every rabbit, induction over the run | `Props.ExRabbits` |
| C130 | Births | partial (violated) | the loop of births, with the exceptions it lets out | induction over the number of babies, for every reachable world | `Props.ExRabbits` |
| C131 | One litter per mating | partial (violated) | ghost counters of matings and litters; the mothers of the improved version | invariant (litters plus pregnancy ≤ matings); for the improved version induction over pairs of activations | `Props.ExRabbits` |
| C132 | Rabbits do not outlive their life expectancy | proved | as C129 | invariant of age by state | `Props.ExRabbits` |
| C133 | The network contains the living rabbits | proved | nodes and edges beside the rabbits | invariant, induction over the run | `Props.ExRabbits` |
| C134 | Accidents | proved | the loop of accidents | induction over the list of rabbits | `Props.ExRabbits` |
| C135 | The custom generator makes simple graphs | partial (violated) | the loop of edges; results of choice arbitrary | invariant over the draws; witnesses for every graph and for coinciding draws | `Props.ExGenerator` |
| C136 | News spread along edges | proved | states, marks and TV sets of all viewers | invariant over any run, with a relation of what one activation may change | `Props.ExNews` |
| C137 | Wise viewers can be cured | partial (violated) | as C136 with the missing attribute | invariant over any run: nobody has the attribute | `Props.ExNews` |
| C138 | The default probabilities of the news example can be used | partial (violated) | as C136 with tuples for missing parameters | case analysis of one activation in any state | `Props.ExNews` |
| C139 | Geographical search finds exactly what is near | partial (violated) | agents with or without a node, positions | lists of matching agents; membership characterised | `Props.Geo` |
| C140 | Beliefs and vulnerabilities are numbers between 0 and 1 | proved | the agents of the example | invariant over any run: convex combinations | `Props.ExTerror` |
| C141 | No spontaneous radicalisation | proved | as C140 | invariant over any run | `Props.ExTerror` |
| C142 | Belief changes only by interaction | partial (violated) | one activation of a civilian | direct, for every state of the others | `Props.ExTerror` |
| C143 | Terrorists are influenced by their group | partial (violated) | one activation of a terrorist | two states that differ in the beliefs of others are compared | `Props.ExTerror` |
| C144 | Terrorists of the network model can act | partial (violated) | as C140 with states that raise | comparison of runs by induction | `Props.ExTerror` |
| C145 | Centralities are those of the current network | partial (violated) | the two caches | case analysis | `Props.ExTerror` |
| C146 | Edge occupation counts the drivers on the way | proved | drivers in any multigraph, activation by activation | invariant by induction over runs | `Props.ExMarkov` |
| C147 | Node occupation counts the drivers at an intersection | proved | as C146 | invariant by induction over runs | `Props.ExMarkov` |
| C148 | Drivers move along streets and take the travel time | proved | as C146 | invariant by induction over runs; case analysis | `Props.ExMarkov` |
| C149 | Lazy drivers prefer near intersections | partial (violated) | `choose_next` with `random.choices` | interval of draws of each result | `Props.ExMarkov` |
| C150 | Square cities can be simulated | partial (violated) | construction of the square city; first activations | case analysis | `Props.ExMarkov` |
| C151 | Drivers can be sent to a position | partial (violated) | `move_to(pos)` in reachable states | the invariant of C146 | `Props.ExMarkov` |
| C152 | A journey has one driver | proved | all runs of drivers and passengers | an invariant relating drivers, passengers and journeys, kept by every activation | `Props.ExCars` |
| C153 | Earnings are the tips of the completed journeys | proved | the accounts in all runs | the invariant of C152 with the ghost list of paid journeys | `Props.ExCars` |
| C154 | The confirmation of a journey never times out | proved | `ask` and `received` in all runs | the invariant of C152, with bounds on the times of activations | `Props.ExCars` |
| C155 | Drivers take a shortest way | proved | `move_towards`; all continuations of all runs | case analysis; an invariant on the steps that are left | `Props.ExCars` |
| C156 | Passengers move with their driver | proved | positions in all runs | the invariant of C152 | `Props.ExCars` |
| C157 | Destinations are in the grid | partial (violated) | destinations and positions in all runs | an invariant on positions and targets; negation for every grid that is not square | `Props.ExCars` |
| C158 | The grid knows where agents are | partial (violated) | cells of the grid in all runs | an invariant on positions and cells; negation for delivered passengers | `Props.ExCars` |
| C159 | Drivers stop when no passengers are left | proved | `die` of drivers in all runs | induction on the activations | `Props.ExCars` |
| C160 | Agents start in different cells | proved | placement of the agents | induction on the agents | `Props.ExCars` |
| C161 | Delivered passengers stop in time | proved | `driving_home` in all continuations of all runs | an invariant on the times of activations | `Props.ExCars` |
| C162 | The benchmark of idle agents counts every activation | proved | runs of `noopSim`, `noopPSim` and the mesa model | induction on the steps; within a step of `PQueueActivation` on the number of entries that are due, with the heap invariant | `Props.ExNoop` |
| C163 | break_state stops before the state | partial (violated) | `breakState`, `continueState` on argument strings, and later calls of functions | parsing lemmas for words; case analysis of the breakpoints | `Props.Debugger` |
| C164 | break_step stops before the next step | partial (violated) | `breakStep` and later calls of `step` | induction on the calls | `Props.Debugger` |
| C165 | The debugger shows the current agent and model | partial (violated) | `wrapcmd` with its global variables, `soilAgents`, `soilAgent` | lookups in updated dictionaries; induction on the attributes | `Props.Debugger` |
| C166 | break_state_self is about the current agent only | partial (violated) | `breakStateSelf` | parsing lemmas for words | `Props.Debugger` |
| C167 | A simulation is found by its name | partial (violated) | `readTarget`, `dbFile`, `dbJoinPath`, `normPath` | paths as lists of parts; splitting and joining are inverse | `Props.Database` |
| C168 | read_sql accepts a path, a URL or a name | partial (violated) | `readTarget`, `normPath` | normalized paths have no double slash after the beginning | `Props.Database` |
| C169 | What was exported to SQLite is read back | partial (violated) | `Database.dumpSims`, `Database.readSql` | invariants of the tables over all writes; rows of an iteration selected by its identifiers | `Props.Database` |
| C170 | Reporters and tables may have any names | partial (violated) | `DbJob.frames`, `Database.toSql` | invariant: the columns of each table are fixed | `Props.Database` |
| C171 | The log of a simulation is shown on the web page | partial (violated) | `reaches`, `simLogger`, `webLogger` | induction over the parts of the name | `Props.Web` |
| C172 | Captured lines are sent in order and at most once | partial (violated) | `WebLog.step`, `SIO.write`, `endedLines` | invariant over all interleavings; witness for the violation | `Props.Web` |
| C173 | No captured line is lost | partial (violated) | `WebLog.step` | invariant: sent and buffered lines are all lines; witnesses | `Props.Web` |
| C174 | Runs of a connection do not disturb each other's log | partial (violated) | `WebLog.step` | invariant: the buffer in use is closed (open) | `Props.Web`, `Props.WebPoll` |
| C175 | A configuration can be run from the web page | partial (violated) | `WebConn.step`, `WebConn.receive`, `WebConn.complete` | invariant over all sequences of messages and ends of runs | `Props.Web` |
| C176 | The settings of the web page are the parameters | proved | `WebConn.receive`, `setType` | case analysis | `Props.Web` |
| C177 | A wrong message does not end the connection | partial (violated) | `WebConn.receive` | case analysis | `Props.Web` |
| C178 | The options of soil-web are respected | partial (violated) | `webMain` | computation | `Props.Web` |
| C179 | plot draws what the model has collected | partial (violated) | `modelDf`, `plotEnv` | case analysis on the columns | `Props.Plot` |
| C180 | plot counts the agents for each value | partial (violated) | `valueCount`, `agentDf` | from C95, induction over the collections | `Props.Plot` |
| C181 | The page for notebooks shows a model with the chosen parameters | proved | `Page.render`, `Page.on` | invariant over all actions: same names and values mean same parameters | `Props.Plot` |
| C182 | The page for notebooks draws the space and the measures | partial (violated) | `Page.draw` | from C181 | `Props.Plot` |
| C183 | A configuration survives being written and read | partial (violated) | `simToDict`, `serializeDict` | induction on the size of the value | `Props.Convert` |
| C184 | Classes of a written configuration are found again | partial (violated) | `objectOf`, `classText`, C61 | from C61 | `Props.Convert` |
| C185 | Writing a configuration does not change it | proved | `hToDict` with lists on a heap | invariant: only cells made by the copy are changed | `Props.Convert` |
| C186 | Decorators of states are respected | partial (violated) | `applyDecos`, `runBody`, `FsmWorld.declare` | from C187 and C28 | `Props.Declare` |
| C187 | Declaring a class does not change other classes | partial (violated) | `FsmWorld.declare`, `FsmWorld.view` | refinement of `mkFsm`: the heap only grows | `Props.Declare` |
| C188 | A customised class differs from its template only in the attributes given | partial (violated) | `custom`, `AgentCls.construct` | the value of each attribute as a function of the class, the model and the arguments | `Props.Declare` |
| C189 | A customised class has the states of its template | partial (violated) | `customFsm` | induction on the states | `Props.Declare` |
| C190 | A customised class is found by its name | partial (violated) | `customName`, `className`, `deserializeName` | induction on the known modules | `Props.Declare` |
| C191 | No agent starves | partial (violated) | the default scheduler; `PQueueActivation` with a population added at time 0 | the measure of C18, with additions; the witnesses by induction on the number of steps | `Props.Liveness`, `Props.PLiveness` |
| C192 | A subgraph has the nodes of the chosen agents | partial (violated) | `NWorld.subgraph` | from the invariant of C39 and from C43 | `Props.NetOps` |
| C193 | Edges have the attributes given | partial (violated) | `EWorld.addEdge` | the keys under which attributes are kept | `Props.NetOps` |
| C194 | add_agents fills a network | partial (violated) | `NWorld.addAgents` | induction on the agents added; counterexample | `Props.NetOps` |
| C195 | Agents are on the nodes they are given | partial (violated) | `NWorld.populateIgnoring` | induction on the nodes: nodes that have an agent are not chosen; counterexample | `Props.NetOps` |
| C196 | Timed blocks are reported | partial (violated) | `TimedCode.run` | induction on the program | `Props.Tools` |
| C197 | easy runs a simulation and hands over its results | partial (violated) | `easyCall`, `easyWith`, `easyPlain` | cases on the outcome of `main` | `Props.Tools` |
| C198 | The options of the debugger are respected | partial (violated) | `debugInit`, `globMatch`, `DebugCall.exec` | induction on patterns and on histories of calls | `Props.Tools` |
| C199 | Writing a graph to a file does not change it | partial (violated) | `gexfNode`, `gexfLoop`, `dumpGexf` | induction on the nodes | `Props.Tools` |
| C200 | A dry run shows what would be written | partial (violated) | `DryFile.write`, `realWrite` | induction on the writes | `Props.Tools` |
| C201 | Different seeds give different numbers | partial (violated) | `intSeed` | injectivity of UTF-8 (core library) and of numbers in base 256 | `Props.Tools` |
| C202 | The log of a run is polled once per interval while it lasts | partial (violated) | `WebLog.step`, `WebLog.endUpdate` | invariant: scheduled calls plus the one under way | `Props.WebPoll` |
| C203 | The scheduler keeps its guarantees with the numbers of Python | partial (violated) | `NSched`, `Num.add`, `round53` | simulation: every execution with rounded numbers is one of the exact scheduler of Timed with adjusted delays, so C01–C04 carry over; bounds on the distance of neighbouring floats; induction for the standstill | `Props.Floats` |
| C204 | The priority queue can always compare its entries | partial (violated) | `siftdownE`, `siftupE`, `PSched.scheduleE`, `pLoopE` | invariant: a key belongs to one agent only; with it every operation on the heap is the one that cannot fail; induction over histories | `Props.PTies` |
| C205 | A configuration of agents yields the agents that it asks for | partial (violated) | `agentsFromConfig`, `sortKinds`, `fromFixed` | induction over the kinds; the number of agents of a distribution from C66; witnesses | `Props.FromConfig` |
| C206 | With the numbers of Python, a Lockstepper covers exactly one interval per step | partial (violated) | `nlockStep`, `nlockRun` | loop invariant, refinement to the exact scheduler through C203; rounding error of a sum; induction over the steps; witnesses | `Props.FloatLock` |
| C207 | Agents may die or be added while an agent iterates over the agents | partial (violated) | `iterLoop`, `listLoop`, `Pool.iterFor`, `Pool.getFor` | induction over the agents that remain to be visited; witnesses | `Props.IterAgents` |
| C208 | The life of an improved rabbit | proved | `colonyRun` (`colonyStep`, `Colony.act`) | invariant that ties the state of every rabbit to its pending activation (`LifeInv`), kept by every activation; induction over the run | `Props.ExRabbits2` |
| C209 | Matings, litters and children of the improved rabbits | partial (violated) | `colonyRun`, `births`, `impregnate` | invariant about the notes (`NoteInv`); witness run of 11 steps | `Props.ExRabbits3`, `Props.ExRabbits4` |
| C210 | The network of the improved rabbits consists of the living rabbits | proved | `colonyRun`, `Colony.kill`, `births` | invariant about nodes, edges and the schedule (`Colony.Net`, `Colony.Among`) | `Props.ExRabbits3`, `Props.ExRabbits5` |
| C211 | Accidents kill every improved rabbit with the same probability | partial (violated) | `Colony.accidentStep`, `strike` | induction over the loop of C207 | `Props.ExRabbits3` |
| C212 | No exception escapes from the improved rabbits | partial (violated) | `colonyRun` | the first activation that raises happens in a state in which the invariants hold; case analysis; witness runs | `Props.ExRabbits4` |
| C213 | Leaders of terrorists | proved | `actTerrorist`, `actLeader`, `runTerr` | case analysis of an activation; invariant over runs | `Props.ExTerror` |
| C214 | The inherited methods of a dictionary work on agents | partial (violated) | `Mapping` (agents as mappings, with the inherited methods) | refinement of a dictionary by induction over operations; witnesses | `Props.Mapping` |
| C215 | Messages between agents are conserved | partial (violated) | `Mail`, `MailProg`, `mailExec` | invariants by induction over user programs, activations and histories; witness run | `Props.Mail`, `Props.MailPQueue` |
| C216 | Values survive serialize and deserialize | partial (violated) | `reprLit`, `readLit`, `literalEval`, `serializeLit`, `deserializeLit` | parser after printer, by induction over values and texts; witnesses | `Props.Literal` |
| C217 | Names of agent classes | partial (violated) | `serializeType`, `serializeTypes`, `deserializeType` | induction over sequences of calls; reduction to C61 | `Props.Literal` |
| C218 | An answer is noticed within one delay | partial (violated) | `Asking`, `AskU`, `Asking.poll`, `Asking.step`, `askReach` | invariant of the scheduler together with mailboxes and coroutine; time line of the asker in the event calendar; witness runs | `Props.Asking` |
| C219 | PQueueActivation keeps its guarantees with the numbers of Python | partial (violated) | `PQueueActivation` on `Num` (Python integers and rounded floats), heap as in heapq | Every execution without lost delays is simulated by the exact scheduler with a replaying user code (heap operations commute with order-preserving maps), which carries C11 over; induction on the number of activations for the step that never ends. | `Props.PFloats` |
| C220 | An agent that waits for messages in a loop deals with each of them within one delay | proved | `Serving`, `Serving.check`, `Serving.code`, `Asking` | invariant of mailboxes together with the event calendar: every message in the inbox has a pending activation in time; running code commutes with hiding the variables of the asker; induction on the checks of the loop | `Props.Serving` |
| C221 | The step of a class may call the step of another class | partial (violated) | `runCode`, `wrappedStep`, `Coro.resume`, `activateAll` | simulation of the shared attribute by one attribute per class, induction on fuel and code; computation of the two failing cases for arbitrary code | `Props.Supers` |
| C222 | The default interval of a model is what its class declares | partial (violated) | `discreteInterval`, `envInterval` | case analysis; the interval is observed through runs of the scheduler (`Spec.Rests`) | `Props.Interval` |
| C223 | Whole simulations of the virus benchmark run the agreed number of steps | partial (violated) | `leaveHost`, `virusHost`, `virusStatesHost`, `virusSimulation`, `mesaRound` | invariant: the queue is one bucket with the agents that are still active, induction on steps; the loop never gets further once the bucket is empty | `Props.VirusSim` |
| C224 | A delay that is not a number does not disturb the simulation | partial (violated) | both schedulers with NaN (Nan) | simulation: leaving out everything at NaN gives an execution of the exact scheduler, whose theorems are transferred; invariant "agents that never met NaN do not wait for it"; invariant of runs that do not end; induction on the fuel; witnesses for the rest | `Props.Nan` |
| C225 | Combinations of parameters are told apart in the results | partial (violated) | `paramsText`, `paramsId`, `runIds` (ParamsId), with `collectParams` (Simulation), `reprLit` (Literal) and the database (Database) | sorting of a permutation with distinct keys is unique; injectivity from the round trip of `literal_eval`; pigeonhole on seven hexadecimal digits; composition with C49 and C169 | `Props.ParamsId` |
| C226 | Kinds of viewers are chosen with the ratios given | partial (violated) | `newsRatios`, `newsKinds` (ExNewsRun) with `choices` and `bisectRight` (Random) | the binary search is evaluated symbolically for three weights, sorted or not; induction on the draws | `Props.ExNewsRun` |
| C227 | What is read from the database is the history of each iteration | partial (violated) | `Sim.database`: run, collect, export and read | composition of C57, C169, C225 and the loop of the simulation; for models without reporters of agents nothing can be read | `Props.Results` |
| C228 | The command line runs the simulations of the file, or tells why not | partial (violated) | `cliMain`, `easyMain`: the flow of `main`, over arbitrary results of loading, configuring and running | induction over the simulations; invariants of the variables of the process | `Props.CliMain` |
| C229 | Options of the command line reach every environment | partial (violated) | `soilFile`: `main` with `Sim.run` | composition of C228, C50, C51 and C52 | `Props.CliMain` |
| C230 | Agents that wait one interval are activated in rounds, as in mesa | partial (violated) | `Sched.step` against mesa's schedulers (`MesaRound`) | induction over the bucket and over the steps: the calendar has one entry for everybody between two steps; simulation relation with mesa | `Props.PRounds`, `Props.Rounds` |
| C231 | The Torvalds example counts steps, neighbours and agents | proved | `torvaldsInit`, `counterHost` | C230, invariants of the counters, filters | `Props.ExTorvalds` |
| C232 | The programmatic example runs a fifth of the time on average | proved | `myAgentHost` | C230, invariants of the counters; sums over all sequences of draws | `Props.ExProgrammatic` |
| C233 | In a simulation of SISa agents moods spread along the network | partial (violated) | `sisaTurn` in `popHost` | C230 (rounds); contentment is kept by turns, induction over paths; invariant: content agents are connected with initial ones | `Props.BuiltinPRun`, `Props.BuiltinRun` |
| C234 | In a simulation of the cascade model awareness spreads along the network | partial (violated) | `cascadeTurn` in `popHost` | C230 (rounds); exact effect of a turn; induction over steps; equality of runs on two networks | `Props.BuiltinPRun`, `Props.BuiltinRun` |
| C235 | TimedActivation obeys its calendar even when agents ask for the past | partial (violated) | `TimedActivation` (Model/Timed) with all delays | invariant between and inside steps (sorted queue, queue = calendar as multisets, every activation answers a pending wake-up); two-state cycle for the starvation | `Props.Backward` |
| C236 | PQueueActivation never goes back in time | partial (violated) | `PQueueActivation` (Model/PQueue) with all delays | invariant for the clock and the log; invariant per agent (heap entries clamped at the clock = its time line); induction on the fuel for the endless step | `Props.PBackward` |
| C237 | Whole simulations of the social wealth model keep the money, collect it, and use the links | partial (violated) | the constructor, the network, the agents, the scheduler and the collector of the example together | the star and its agents by an invariant of `populate_network`; the rounds by the comparison with mesa (C230); conservation by an invariant of turns; the data by induction over the steps | `Props.ExSocial` |
| C238 | Whole simulations of the city: drivers travel along the streets, for the travel times, and do not rest | partial (violated) | the drivers of C146-C151 as agents of the default scheduler, with and without `Lockstepper` | invariant of the log, the calendar and the drivers together: the activations of each driver are those of a journey; the steps end because the number of activations up to a time is bounded | `Props.MarkovRun` |
| C239 | Whole simulations of the pub crawl: everybody finds friends, gets into a pub if there is room, and gets home | partial (violated) | the pub crawl in the scheduler: the police and the patrons, each with a turn in every step | rounds of C230; the turn of a patron does not change the others (there are only edges from a patron to itself); invariants for friends and places; counting | `Props.CrawlPRun`, `Props.CrawlRun` |
| C240 | Whole simulations of the news example: the news reaches everybody who is connected with a TV set in time, and nobody sooner than it can | partial (violated) | the viewers of C136-C138 as agents of the default scheduler and of `PQueueActivation` | both schedulers consist of rounds (C230) in which everybody has one turn; distance from the TV sets bounded above and below by induction on the rounds; for the exception: the turn of the wise viewer in the first two buckets | `Props.NewsRun` |
| C241 | A terrorist without civilian friends makes one relationship with a civilian who is near, or none | partial (violated) | `update_relationships` with the ids that `get_agents` ignores | the loop over all ids is cut at the agent itself, whose number of hops is 0 | `Props.TerrNet` |
| C242 | Whole simulations of the terrorism example run for max_steps steps | partial (violated) | the agents of C140, C141, C213 and C241 in both schedulers | rounds of C230 give a history of activations for the theorems about histories; for the exception: radicals remain radical, so the turn comes in the next step (Raises) | `Props.TerrNet` |
| C243 | The virus benchmark begins with the given outbreak, and reports every agent once | proved | `init` of the three versions with `filter_agents` of C47, and the reports | the query selects the sampled positions; counting lemmas for lists; with C223 for later steps | `Props.VirusStart` |
| C244 | Whole simulations of mesa's wealth model keep the money, move everybody and record every state | partial (violated) | `MoneyAgent.step` on a torus, `MoneyModel.step` with the collector, the loop of `BatchRunner` | an invariant of turns; induction over the order of agents with the changes of each agent, then over the steps | `Props.WealthRun` |
| C245 | In the example of drivers and passengers everybody gets home, and the simulation ends | proved | The model of ExCars (any order of agents due at the same time) | Invariant with a deadline for the first driver: while a passenger has no driver, its broadcast is in the inbox of the driver or will be by then; each journey taken moves the deadline by the longest trip; a decreasing sum of remaining times bounds the number of activations. | `Props.CarsEnd` |
| C246 | Whole simulations of the example of drivers and passengers in the scheduler | proved | The agents of ExCars as a host of the scheduler model; `City.init` adds drivers and then passengers | an invariant of the scheduler and the city (KeepsInv): what is scheduled is when agents are due; refinement to the runs of C245, whose deadlines give the rest | `Props.CarsRun` |
| C247 | Every simulation with PQueueActivation is a simulation with TimedActivation | proved | The code of the agents, which may read time, steps, agents and the rest of the world, run by either scheduler; the orders and the keys are any functions of the number of uses | the steps of the heap are replayed on the bucket with the order of their activations; simulation relation between the two schedulers by induction over steps; witness for the difference at the end | `Props.Refine` |
| C248 | Whole simulations of the example of drivers and passengers with PQueueActivation | proved | The agents of ExCars in the model of `PQueueActivation` | C247 carries C246 over; the stop without limits from the stop of the model when nothing is scheduled | `Props.CarsPQueue` |
| C249 | TimedActivation and PQueueActivation have the same runs | proved | The same user code in both schedulers (Refine) | the tie-breaking numbers are the places of the agents in the orders of the steps in which they are activated next; a heap whose keys follow an order is emptied in this order; simulation relation by induction over steps | `Props.Converse` |
| C250 | No code around the scheduler can tell which one is used | proved | Arbitrary code around either scheduler; `Lockstepper.step` around any scheduler (Driver) | the simulation relations of C247 and C249 are kept by every action; the orders and the numbers are read off the runs of the code; `Lockstepper.step` is followed through the actions of one such code | `Props.Driver` |
| C251 | All ways to launch a simulation run the same simulation | partial (violated) | `Simulation.__init__`, `__post_init__`, `dataclasses.replace`, `Simulation.run(**kwargs)`, `BaseEnvironment.run`, `soil.simulation.run` (Launch) | case analysis of the fields; fields after `__post_init__` are a fixed point of it | `Props.Launch` |
| C252 | In whole simulations of the basic rabbits the population grows | partial (violated) | the three agents of the example as user code of the scheduler, whole runs | invariant on both rabbits by the number of their activations, with the step of the birth as a parameter; a second invariant for the time after the life expectancy; refinement to the events of C129 | `Props.RabbitsRun` |
| C253 | Whole simulations with agents that choose their own timeouts run every agent at exactly its times | proved | the agents of both examples as user code of either scheduler, whole runs | invariant: the two due times with the gaps between Fibonacci and odd numbers; the queue in closed form; PQueueActivation by the refinement of C247 | `Props.TimersRun` |
| C254 | Whole simulations of the example with a custom generator count every edge of the network twice | partial (violated) | `GeneratorEnv.init`, the placement of the counters and the whole run | invariant over the agents added (every agent alone on its node, new nodes numbered on, occupied); double counting of the edges by a bijection with pairs of agents; C231 for the steps; for the violation, the invariant for the random numbers 0, for every size | `Props.GeneratorRun`, `Props.GeneratorStart` |
| C255 | Simulations of agents that change only themselves do not depend on the order or the scheduler | proved | agents that change only themselves, with either scheduler; the counters | a round in any order changes each agent by its own turn (induction over the order, which has no duplicates); C230 for the rounds of both schedulers; induction over the steps for the counters | `Props.OwnRaise`, `Props.OwnRun` |
| C256 | Simulations of the improved rabbits end at max_time | proved | the improved rabbits inside the scheduler and the loop of _run_model | all times are multiples of 1/d; level of a wake-up: 2j at the j-th time for agents that were activated before, 2j+1 for the newborn; every step raises the smallest level, by induction over the bucket with the phases of C208 (a mother was activated before) | `Props.RabbitsEnd` |
| C257 | A bounded simulation with births terminates | proved | the scheduler with any agents that add agents, and the loop of _run_model | each wake-up before max_time has a rank (what remains of the time in units of δ, one more for the newborn); every step makes the multiset of the ranks smaller in the Dershowitz-Manna order, which is well founded; the counterexample by induction over the steps | `Props.Births` |
| C258 | The unit of time does not matter | proved | both schedulers with any agents, and the loop of _run_model | the change of unit commutes with every operation of the schedulers (heaps only look at the order of their entries); induction over histories and over the loop; the last claim by a witness | `Props.Units` |
| C259 | The origin of the clock does not matter | partial (violated) | both schedulers with any agents, and the loop of _run_model | the change of origin commutes with every operation while the clock and the queue are not before 0 (invariant); induction over histories and over the loop; the violations by witnesses | `Props.Origin` |
| C260 | Which objects the agents are does not matter | proved | both schedulers with any agents, and the loop of _run_model | the renaming commutes with every operation of the schedulers; induction over histories and over the loop; the conditions by witnesses | `Props.Rename` |
| C261 | What the agents do not look at does not matter | proved | both schedulers with any agents, and the loop of _run_model | bisimulation: every operation of the schedulers keeps the correspondence; induction over buckets, histories and the loop | `Props.Unseen` |
| C262 | A longer simulation begins with the shorter one | proved | the loop of _run_model with any environment; the default scheduler for the log | induction over the loop with the two limits side by side; the log only grows | `Props.Continue` |
| C263 | Idle agents do not matter | proved | the ordered TimedActivation with any agents, and the loop of _run_model | after the first step the agent is in no bucket (invariant); leaving out its events commutes with every operation; induction over the bucket and the loop; the condition by a witness | `Props.Idle` |

## Violations found

Each is proved for the model of the code as it is; the file and lines are in the comments of the definitions involved.

* **C01** Simulated time never goes backwards (the property itself is proved; its premises are needed). TimedActivation, arbitrary user code, shuffles and histories, with and without exceptions; the last theorem shows the non-negative-delay premise is needed
  * `C01_negative_delay_false`: The premise on delays is needed: with a negative delay the clock goes backwards.
* **C08** schedule.add(agent, when=t) schedules the first activation at t. the code violates the claim (argument passed in the wrong position); proved: negation, exact extent, and the case when=None/now
  * `C08_add_when_false`: C08 is violated: `add(agent, when=5)` at time 0 runs the agent at time 0.
* **C10** An exception in one agent does not lose the others. the code violates the claim; proved: negation, and that over any history with any number of exceptions only agents of the instant of an exception are lost
  * `C10_exception_loses_others_false`: C10 is violated: agents 0 and 1 are both due at time 0; agent 0 raises; agent 1, which has not run, is not pending any more and never runs, however often the schedule is stepped.
* **C12** PQueueActivation.add keeps the agents already scheduled. violated whenever the clock is not 0 (general eviction theorem, IndexError theorem, reachable witness); holds at time 0
  * `C12_add_evicts_false`: C12 is violated: whenever the clock is not 0, adding an agent evicts the earliest pending activation of somebody else.
  * `C12_witness_false`: 
  * `C12_add_raises_false`: C12 is violated in another way: with nothing pending the addition raises `IndexError` and the agent is not added.
* **C15** agent.at(t) wakes the agent at t. holds for the default scheduler; violated under Lockstepper (exact shift and witness)
  * `C15_at_lockstep_false`: C15 is violated under a `Lockstepper` with interval 10: the agent, activated at time 1 of the interval, asks for `at(5)` and is activated at 6.
* **C19** A simulation ends when all its agents are done. violated by TimedActivation without max_time: general divergence theorem and witness; holds when max_time is set, and for PQueueActivation with any bounds
  * `C19_exhausted_diverges_false`: C19 is violated: once everything has finished, a run without `max_time` never returns, not even with `max_steps` (the default scheduler neither stops the model nor counts further steps).
  * `C19_witness_false`: The witness: one agent that dies at once; `max_steps=10`; the run goes on for ever.
* **C20** The command line respects the simulation's own limits. violated: without options the configured limits are replaced by None and every model that does not stop by itself runs for ever; holds for a limit whose option is given or that is not configured
  * `C20_cli_drops_limits_false`: C20 is violated: whatever limits a simulation has, when it is run through the command line without `--max_time` and `--max_steps` the run of every model that does not stop by itself never returns.
  * `C20_witness_false`: The witness: with `max_time=3` the simulation returns at time 3 when run from Python; run through the command line it never returns.
* **C22** A failing generator step restarts cleanly. Violated: after an exception in a generator step the next activation is swallowed; an async step never runs again. Proved: a generator step restarts at the second activation after the failure.
  * `C22_swallowed_activation_false`: C22 is violated (generators): after a run of the body has raised, the next activation runs no user code and replies `None`; only the one after that starts a new run.
  * `C22_coroutine_stuck_false`: C22 is violated (coroutines): after a run of an `async` body has raised, every later activation raises and no code of the agent is ever run again.
* **C23** FSM return value contract. Violated for state ids of exactly two characters (the string is unpacked as a pair) and for bad delays (state changes before the error). Proved for all other returned values.
  * `C23_two_char_id_false`: C23 is violated for state ids of two characters: returning such a declared id raises (and the state does not change), unless its first character is itself a state id.
  * `C23_witness_false`: 
  * `C23_two_char_id_moves_false`: ... and if its first character is a state id, the agent moves to *that* state and the second character becomes the delay.
  * `C23_bad_delay_false`: C23 is violated for a pair of a valid state and a bad delay: it raises, but the state has already changed.
* **C24** An FSM agent is always in a declared state. Violated by returned State objects of other classes; proved over all histories for user code that returns only State objects of its own class.
  * `C24_foreign_state_false`: C24 is violated: a state function that returns a `State` object of another class (or one created on the fly) leaves the agent in a state its class does not declare, whatever the class.
* **C25** State cannot be forced after the start. A foreign State object is accepted without error.
  * `C25_foreign_state_false`: C25 is violated for `State` objects: the state of another class is accepted.
* **C26** Dead agents do not act. Violated for plain agents killed while scheduled and for FSM agents killed while suspended in a generator state; proved for FSM agents otherwise, over all histories.
  * `C26_plain_killed_false`: C26 is violated: a plain agent (`BaseAgent` with its own `step`) killed by an agent that acts before it in the same instant still executes its `step`.
  * `C26_suspended_false`: C26 is violated: an FSM agent killed while suspended in a generator state executes the rest of it.
* **C27** Stepping a dead agent always reports it. Violated: DeadAgent is raised only by every second call for FSM agents, never for plain ones.
  * `C27_every_second_false`: C27 is violated: repeated calls of `step` on a dead FSM agent raise `DeadAgent` only every second time; the other calls return `None` (which reschedules the agent when the caller is a scheduler).
  * `C27_plain_false`: C27 is violated even more by plain agents: whether they are alive makes no difference to `step`.
* **C28** States are inherited and overridable. The initial state is inherited wrongly when a default state is redefined as non-default, and when a grandchild sees an overridden default again.
  * `C28_redefined_default_false`: C28 is violated: a subclass that redefines the default state without marking it again starts in the *old* state object (with the old function), though the state of that name is the new one.
  * `C28_grandchild_false`: C28 is violated: a subclass may change the initial state, but its own subclasses forget that (even with an empty body): the order of the inherited states decides.
* **C29** Attribute initialisation precedence. Proved for attributes whose name is not that of a built-in attribute, method or property, and single inheritance; violated for those names (class default ignored) and with multiple inheritance (a base's default overrides the redefinition in another base that derives from it).
  * `C29_method_name_false`: C29 is violated for attributes whose name is that of a method or property of the class: the class default is ignored (reading the attribute gives the method).
  * `C29_builtin_name_false`: The same for the attributes every agent has: the class default is ignored.
  * `C29_diamond_false`: C29 is violated with multiple inheritance: in `class M(B, A)` where `B` is a subclass of `A`, a default of `A` overrides the one with which `B` redefined it (Python's attribute lookup would find `B`'s).
* **C32** Agents and environments behave as dictionaries. Violated for names of class attributes, for deletion of absent names (AttributeError), logger is a key of environments, iteration over an agent yields pairs; proved otherwise for all sequences of operations.
  * `C32_class_attribute_false`: C32 is violated for names that are attributes of the class (e.g. methods, `schedule_class`): deleting a value assigned before does not make the name absent, the class attribute appears.
  * `C32_delete_absent_false`: C32 is violated: deleting an absent name raises `AttributeError`, not `KeyError`.
  * `C32_env_keys_false`: C32 is violated: `logger` and `model` are listed among the keys of an environment that has them (every environment has a logger).
  * `C32_iteration_false`: C32 is violated: iterating over an agent gives pairs, not keys, so that for instance `popitem` and `clear` (inherited from `MutableMapping`, which look up what iteration yields) fail for every agent with a key.
* **C34** Messages are handled once, in order. Proved for every handler whenever process_messages returns; it returns if the handler neither raises nor touches its own inbox. Violated when a handler sends a message to its own agent: RuntimeError, nothing is cleared.
  * `C34_self_message_false`: C34 is violated: if the handler of the first message (not expired) puts a message in the agent's own inbox, `process_messages` raises, only that message has been handled, and all messages stay in the inbox.
* **C35** Failure of a handler does not duplicate deliveries. Violated at every crash point: the inbox is only cleared at the end, so messages already handled are handled again. What holds: no message is lost.
  * `C35_reprocessed_false`: C35 is violated: if `on_receive` raises for some message, everything stays in the inbox; the next call hands all the messages that had been handled before the failure to `on_receive` again (and fails again, if the handler does).
* **C36** Broadcast reaches everyone else once. Proved when no other agent has the id of the sender; violated for an agent with the same public attributes as the sender (== is equality of dictionaries).
  * `C36_equal_agents_false`: Without unique ids C36 is violated: an agent with the same public attributes as the sender (possible with explicit ids) does not receive the message.
* **C37** received() returns the messages. Violated: by default the caller always gets an empty list; messages that arrive between the last poll before the deadline and the deadline lead to TimedOut. Exact characterisation for process=False.
  * `C37_empty_result_false`: C37 is violated by default (`process=True`): whenever `received()` returns, the caller gets an empty collection, although messages were there and have been handled.
  * `C37_late_poll_false`: C37 is violated by the deadline: a message that arrives before the deadline but after the last activation before it is not returned; the wait raises `TimedOut`. `start + delay` is the second activation, the deadline lies between.
* **C38** ask() returns the reply. Violated: the sender is the target, replies that count as false are never returned, expiration is ignored. Proved for replies that count as true.
  * `C38_sender_false`: C38 is violated: the target sees itself as the sender, not the asker.
  * `C38_falsy_reply_false`: C38 is violated: a reply that Python counts as false (`None`, 0, `False`, an empty string or container) is never returned, however often and whenever the asker looks. In particular `on_receive` without `return`.
  * `C38_waits_forever_false`: With such a reply and no timeout, the asker waits for ever.
  * `C38_expiration_ignored_false`: The parameter `expiration` of `ask` has no effect.
* **C39** Agents and nodes stay linked one to one. Violated: the fallback node len(G) may hold a living agent (after deaths, or with such node names), which is then displaced. Proved for every history in which this does not happen, and, without condition on the random choices, for graphs that only grow.
  * `C39_displaced_false`: C39 is violated: if there is a living agent on node `len(G)` (after deaths, or with such node names from the start) and the random candidates are all taken, the new agent takes the node from it: two living agents share a node.
* **C40** A node is created only when the network is full. Violated: only random candidates (drawn with replacement) are looked at, so free nodes are missed; the fallback len(G) is not necessarily fresh. Exact characterisation of the choice proved.
  * `C40_missed_false`: C40 is violated: however many nodes are free, if one is taken then some random choices never look at a free one, and a node is added (or, worse, `len(G)` is used, see `C39_displaced_false`).
* **C41** populate_network fills the network. Violated for nodes whose attribute agent is None. Proved for graphs without such nodes and constructors that succeed.
  * `C41_reserved_false`: C41 is violated: a node whose attribute "agent" is `None` is skipped and stays without agent.
* **C44** Death removes an agent from everything. Proved for agents that die after their creation, right away and after any further history. Violated for an agent that dies in init: it is scheduled afterwards.
  * `C44_die_in_init_false`: C44 is violated when an agent dies while it is being created (`self.die()` in `init`): it is scheduled afterwards.
* **C45** add_edge links exactly the two agents. Proved for undirected graphs; on directed graphs only one of the two gets a neighbour.
  * `C45_directed_false`: C45 is violated on directed graphs: the other agent does not get a neighbour.
* **C46** An agent can look up others by id. Violated for network agents: NetworkAgent.iter_agents never uses unique_id.
  * `C46_network_false`: C46 is violated for network agents: the id is ignored, all agents are returned.
  * `C46_network_ids_false`: C46 is violated for network agents in every query: ids, by name or by position, make no difference, nor do they among the neighbours.
* **C47** get_agents returns the conjunction of its criteria. Violated: with several criteria on attributes only the last one is applied (late binding of the loop variables); an empty list of ids does not restrict; agents without a state are found by an attribute state_id of the model. Proved for at most one criterion on attributes.
  * `C47_only_last_false`: C47 is violated: with several criteria on attributes only the last one is applied. Any agent that satisfies the last criterion is returned, whether or not it satisfies the others.
  * `C47_empty_ids_false`: C47 is violated: an empty list of ids is treated as no restriction.
  * `C47_model_state_false`: C47 is violated when the model has an attribute `state_id`: agents that have no state are taken to be in that one.
* **C50** Fixed parameters apply to every matrix combination. violated: the fixed parameters are a combination of their own and no matrix combination contains them; holds without matrix
  * `C50_fixed_false`: C50 is violated: the fixed parameters are one combination of their own, without the matrix, and no matrix combination contains them.
  * `C50_missing_false`: In general: a fixed parameter that is not in the matrix is missing from every matrix combination.
  * `C50_witness_false`: 
* **C54** Deferred simulations run the configured combinations once. violated with a matrix (n combinations become n*(n+1)) and when the simulation is bound to a name (everything twice); holds for unnamed simulations without matrix
  * `C54_count_false`: C54 is violated: for a matrix with `n` combinations (and no fixed parameters) `n * (n + 1)` combinations are run instead of `n`.
  * `C54_bound_twice_false`: C54 is violated in a second way: a file that binds the simulation to a name and calls `run` on it runs everything twice (here without any matrix).
* **C55** Loading a broken file has no effect on later loads. violated: simulations queued before the failure come back with the next file
  * `C55_broken_file_false`: C55 is violated: a file that calls `run` and then raises leaves its simulation queued; it comes back when the next file is loaded.
  * `C55_witness_false`: 
* **C56** Reporters belong to their parameter set. violated: reporters accumulate in the simulation's dictionaries; holds when no combination brings reporters
  * `C56_reporters_leak_false`: C56 is violated: an environment of the second combination gets the reporters of the first one.
* **C58** Agent reporters can be limited to a type. Violated: with agent_type and a callable reporter the wrapper calls itself, so every step with an agent of that type raises RecursionError. Proved for agents of other types and for reporters without a type.
  * `C58_recursion_false`: C58 is violated: for an agent of the type the reporter never returns, whatever the reporter and however deep the recursion may go.
  * `C58_step_fails_false`: C58 is violated for whole runs: with such a reporter, no step of an environment with an agent of the type succeeds.
* **C60** Source files are registered only while in use (the property itself is proved; its premises are needed). The _false theorems show that both conditions of the property (different files, proper nesting) are needed.
  * `C60_same_file_false`: The condition that files differ is needed: with a file used inside its own block, leaving the outer block raises `ValueError` although nothing failed.
  * `C60_unnested_false`: The condition on nesting is needed: if the first of two files is removed before the second, the next file gets the name of the second one's module, which is lost.
* **C61** Class names round-trip. Violated by classes named like a builtin, classes shadowed by an attribute of a known module, classes of __main__, and classes with an attribute deserialize. Proved for all the others.
  * `C61_builtin_false`: C61 is violated by every class named like a builtin: what comes back is a function that evaluates literals.
  * `C61_shadowed_false`: C61 is violated when an earlier known module has something else under the name of the class: this is what comes back.
  * `C61_main_false`: C61 is violated by classes of the script (`__main__`) that no known module has: there is an error, unless `eval` finds that name in `soil.serialization`.
  * `C61_deserialize_false`: C61 is violated for classes with an attribute `deserialize`: this comes back instead.
* **C63** Backups preserve previous results. Violated when a file is replaced in the second it was written: the backup name is the modification time in seconds, so an earlier backup is overwritten. Proved for one operation, for one call of any exporter, and for whole histories whose operations are in different seconds.
  * `C63_same_second_false`: C63 is violated: of three results written with backups, the first of which is replaced in the second in which it was written, the first one is lost.
* **C65** Distribution thresholds partition the unit interval. Violated with items with ids: their weights count in the total but they have no interval. Proved without such items.
  * `C65_ids_false`: C65 is violated when there are items with ids: their weights count in the total, so that the intervals end before 1, and numbers above are in no interval.
* **C66** A distribution yields exactly n agents. Violated without n (TypeError), with a smallest weight 0 (ZeroDivisionError), and for weights not given when the numbers do not work out. Proved with positive weights given for all kinds.
  * `C66_no_total_false`: C66 is violated without a total: `TypeError`, even if every kind has its number.
  * `C66_zero_weight_false`: C66 is violated when the smallest weight is 0: `ZeroDivisionError`.
  * `C66_no_weight_false`: C66 is violated when a kind has no weight (although a missing weight counts as 1) and the numbers do not work out exactly: `random.choices` gets `None` among the weights. For example two kinds without weights and an odd `n`.
* **C67** --set updates exactly one parameter. Violated: a dictionary shared by two parameters changes in both; a parameter below a key such as items or values (an attribute name of dictionaries) cannot be set. Proved when the dictionaries on the path are not shared.
  * `C67_shared_false`: C67 is violated for shared dictionaries (YAML anchors, Python objects used twice): the parameter changes in all of the places.
  * `C67_attribute_false`: C67 is violated for parameters below a key such as `items` or `values`: it cannot be set.
* **C69** SISa: discontent spreads through neighbours. Violated: neutral agents compare state ids with a State object, content agents lack a return, so discontent never spreads. Proved: content spreads as documented.
  * `C69_neutral_false`: C69 is violated: a neutral agent never becomes discontent through its neighbours. Whatever happens in the step, with any number of discontent neighbours and any infection probability, it becomes discontent only if the draw for the spontaneous change says so.
  * `C69_content_false`: C69 is violated: a content agent never becomes discontent, for any parameters, neighbours and draws.
  * `C69_never_false`: C69 is violated, in the long run: without spontaneous discontent, an agent that is neutral or content is never discontent, however many steps it makes and whoever its neighbours are.
  * `C69_begin_false`: C69 is violated: agents begin in the state `neutral`, so without spontaneous discontent nobody is ever discontent.
* **C70** Independent cascade: awareness spreads through neighbours. Violated: state_id=1 never matches, so an agent never leaves imitate. Proved: the change from outside to imitate.
  * `C70_never_false`: C70 is violated: an agent that is in `imitate` stays there for ever, whatever the number of aware neighbours and the probability of imitation.
  * `C70_begin_false`: C70: agents begin `outside`; whatever happens, they are in one of the two states of the class; and one that is aware never becomes unaware again.
* **C71** Queries do not change their arguments. Violated: filter_agents updates the caller's state dictionary.
  * `C71_state_polluted_false`: C71 is violated: a non-empty `state` dictionary keeps the other criteria of the call; a later query with the same dictionary applies them too.
* **C72** Agent data is kept for every step. Violated when a step does not advance schedule.steps (nothing is scheduled any more): the previous records are overwritten. Proved for steps that advance it.
  * `C72_overwritten_false`: C72 is violated: whenever a step does not change the number under which records are kept (`schedule.steps`), the records of the previous step are lost.
  * `C72_exhausted_false`: That happens with the default scheduler when nothing is scheduled any more (all agents wait for ever or are dead).
* **C73** Expanding a template does not change its configuration. Violated: sampler_config.pop takes the method out of the caller's configuration.
  * `C73_method_false`: C73 is violated: expanding a template takes the method out of its configuration, so that a second expansion uses the default sampler (with the arguments of the other one).
* **C74** Results of different iterations do not overwrite each other. Violated: gexf files are named after the iteration id, which repeats for every combination of parameters; dummy keeps the last iteration only. Proved for one combination, and for csv and sqlite, which append.
  * `C74_gexf_overwritten_false`: C74 is violated: with several combinations of parameters, only the graphs of the last one are kept; those of all the others are overwritten, since the files are named after the iteration only.
  * `C74_dummy_false`: C74 is violated by the exporter `dummy`: without backups, only the line of the last iteration is left when it has ended.
* **C75** Errors while writing a result reach the caller unchanged. Violated: AttributeError and TypeError of the block become RuntimeError (generator yields twice). Proved for all other exceptions.
  * `C75_replaced_false`: C75 is violated: an `AttributeError` or `TypeError` of the block that writes a file is replaced by a `RuntimeError`.
* **C76** Every exporter shipped with soil works. Violated: graphdrawing always raises, SQLite alone raises when its directory does not exist. Proved for the others.
  * `C76_graphdrawing_false`: C76 is violated: `graphdrawing` raises at the end of every iteration, and with it the simulation; whatever comes after is not exported.
  * `C76_sqlite_false`: C76 is violated: the exporter `SQLite` alone raises at the start when its directory does not exist yet.
* **C77** The state of a kind wins over the default state. Violated for distributions: the default state overwrites the state of the kind. Proved for keys not in the default and for fixed agents.
  * `C77_default_wins_false`: C77 is violated: a value of the default state replaces the value of the kind, in all agents.
* **C78** The topology setting of one kind does not affect others. Violated: topology of one item leaks to the following items that do not set it. Proved for kinds that set it.
  * `C78_leak_false`: C78 is violated: an agent of a kind that does not say whether it is in the topology is put there if the agent before it is, although neither the caller nor the defaults ask for it; so this depends on the shuffling.
* **C79** Agents of the Bass model can step. Violated: step calls self.behaviour(), which does not exist. Proved: it works with a behaviour passed by hand.
  * `C79_no_step_false`: C79 is violated: a step of a Bass agent raises `AttributeError`, however the agent was created (unless a `behaviour` is passed to it by hand).
* **C81** SISa agents have parameters of their own. Violated: every agent seeds its own generator with the seed of the model, so all agents have equal parameters; content_neutral is ignored. Proved: models without seed, the other settings.
  * `C81_equal_false`: C81 is violated: in a model with a seed (all those of a simulation) all agents have the same parameters.
  * `C81_content_neutral_false`: C81 is violated: the setting `content_neutral` has no effect on any agent.
* **C90** received and ask wait exactly as long as asked. violated by received(expiration=0), which counts as no expiration
  * `C90_zero_expiration_false`: C90 is violated for `received(expiration=0)` at time 0, which should raise at once: it waits for `timeout`, for every positive timeout (60 by default).
* **C91** Every parameter of a combination reaches the model. violated: parameters named like arguments of the intermediate calls make the run fail, and num_processes is swallowed
  * `C91_taken_false`: C91 is violated by names that the calls use themselves: the run fails (`TypeError`) although the model may well have a parameter of that name.
  * `C91_num_processes_false`: C91 is violated by a parameter called `num_processes`: the model never gets it.
* **C92** The number of processes does not change the outcome. violated: with several processes failures never reach the caller
  * `C92_failures_hidden_false`: C92 is violated when iterations fail: with several processes no exception ever reaches the caller, and exactly the results of the failing iterations are missing.
* **C93** num_processes is respected. violated: the field num_processes has no effect, and less than 1 never means all processors
  * `C93_all_processors_false`: C93 is violated: a `num_processes` of 0 or less never uses a pool, whatever the number of processors (the line that computes their number is never reached).
  * `C93_field_ignored_false`: C93 is violated: the field `num_processes` of a simulation has no effect; without a parameter of that name there is no pool.
* **C94** Running a Simulation object again gives the same environments. violated: reporters of a combination stay in the simulation
  * `C94_rerun_false`: C94 is violated: after a run without exceptions in which some combination brings the reporter `k`, a second run gives `k` to every environment, those of other combinations too.
  * `C94_witness_false`: ... which can differ from the first run.
* **C95** agent_df labels the data of agents with the time of collection. violated when the first collections find no agents and when there are two collections at one time
  * `C95_shift_false`: C95 is violated when the first collection finds no agents (they are created later) and the later ones do: every row gets the time of the collection before its own.
  * `C95_same_time_false`: C95 is violated when data was collected twice at the same time: `agent_df()` raises, whatever else was collected.
  * `C95_spawn_false`: C95 is violated with the default scheduler by any step that creates agents (here agent 0 creates agent 9 in its first step): the agent is due at the same instant, so there are two collections at that time, and `agent_df()` raises.
* **C97** dir_path defaults to the folder of the configuration. violated for dictionaries: the parent of the working directory is used
  * `C97_dict_false`: C97 is violated for configurations given as dictionaries: their simulation looks for files in the parent of the working directory.
* **C98** Loading leaves the interpreter as it was. violated by every configuration file, every Python file that fails and every network generator; deferral always ends
  * `C98_config_false`: C98 is violated by every configuration file: its folder stays in `sys.path`, whether it can be read or not.
  * `C98_raising_false`: C98 is violated by every Python file that raises an exception: its folder stays in `sys.path`, and the half-executed module stays in `sys.modules`.
  * `C98_nothing_false`: C98 is violated by a Python file without simulations and environments: its folder stays in `sys.path`.
  * `C98_generator_false`: C98 is violated by generators too: the directory of the environment stays on `sys.path` (if it was not there).
* **C99** Files that cannot be loaded are reported. violated: missing configuration files are ignored, a ValueError of a Python file is replaced
  * `C99_missing_false`: C99 is violated: a file that does not exist (or whose name contains a wildcard, so that `glob` does not find it) yields no simulation and no error.
  * `C99_value_error_false`: C99 is violated when the code of a Python file raises a `ValueError`: the outcome is that of reading the code as a configuration file, and the exception of the file is gone.
* **C100** run_from_file runs the simulations of the files. violated: the method run_simulation does not exist
  * `C100_run_from_file_false`: C100 is violated: `run_from_file` never runs a simulation; if the files contain any, it raises `AttributeError`.
* **C101** Settings not mentioned on the command line keep their values. violated for eight settings that the command line always overwrites
  * `C101_overwritten_false`: C101 is violated for eight settings: whatever the simulation says, they are replaced, also when nothing at all is given.
  * `C101_witness_false`: Without any option, a simulation that was not to write anything, with its own exporters and folder, writes to `soil_output`.
* **C102** Options given on the command line take effect. violated: --output is ignored unless main is called with output=None
  * `C102_output_false`: C102 is violated: unless the caller of `main` passes `output=None`, `--output` has no effect at all.
* **C103** Each exporter asked for is used once. violated: --csv and --graph repeat exporters that are already there, and the caller's list is changed
  * `C103_twice_false`: C103 is violated: with `-e csv --csv` (or `--csv` and `csv` among the caller's exporters) everything is written twice.
  * `C103_caller_list_false`: C103 is violated: the list of the caller grows, so that a second call of `main` with the same list uses the options of the first.
* **C104** Unflattening loses no value. Violated when a key is followed by one of its prefixes ({'a.b': 1, 'a': 2}): the first value disappears. Otherwise every value is kept, and a key below an earlier value is an error.
  * `C104_lost_false`: C104 is violated when a key is followed by one of its prefixes (`{"a.b": 1, "a": 2}`): the first value disappears, without an error.
* **C105** Looking up one agent. agent(...) is always the first of get_agents(...); violated with several criteria on attributes, since get_agents(...) is wrong then.
  * `C105_wrong_agent_false`: C105 is violated with several criteria on attributes: the agent returned need not satisfy them (see `C47_only_last_false`).
* **C106** The agents of an environment are a mapping from ids. Violated: no agent can be looked up by its id, no id is in the collection, and iterating raises (values() of a list). The length and the membership of agents are right.
  * `C106_mapping_false`: C106 is violated: no agent can be looked up, whatever the key; no id is in the collection; iterating raises. Looking up an id or a slice raises `ValueError`; looking up an agent that is in the collection raises `TypeError`, and another one `ValueError`.
* **C107** The network of an environment is the one asked for. Violated: a graph object without nodes is replaced by another graph; parameters called seed, dir_path, topology or generator never reach the generator; a generator that raises TypeError is called twice. Proved for the other cases.
  * `C107_empty_graph_false`: C107 is violated for a graph without nodes: the environment gets another, undirected graph, even if the one given is directed.
  * `C107_seed_false`: C107 is violated for generators that take a seed: a seed among the parameters is an error, the generator is not called.
  * `C107_reserved_false`: C107 is violated for generators with a parameter called `topology` or `generator`.
* **C108** A new environment is consistent. C108_checked holds for every graph and agents told apart by ==. C108_populated_partial leaves out graphs with attributes agent or agent_id (see C41, C110) and init methods that raise or die. With an attribute agent_id the constructor never returns (C110_agent_id_false).
  * `C110_agent_id_false`: C110 is violated: if some node has an attribute `agent_id`, the constructor never returns an environment.
* **C109** Iterations do not influence each other through the network. Violated when the topology is a graph object: the environments share it, the nodes keep the agents of the first iteration, and the second iteration ends with 'No agents in model'. Holds if the graph is read or generated for each environment.
  * `C109_shared_graph_false`: C109 is violated for a graph object as `topology`, with agents from `agent_class`: unless nodes without agents come about during the first iteration (`run 0`), the second iteration, whose environment uses the same graph, has no agents; the simulation ends with an exception, whatever the number of iterations.
  * `C109_deaths_false`: In particular: with any deaths and new edges in the first iteration.
* **C110** Topologies can say which agent is on a node. Violated: get_agents(id) is a list, so the constructor always raises. Agents with an attribute node_id are linked.
  * `C110_agent_id_false`: C110 is violated: if some node has an attribute `agent_id`, the constructor never returns an environment.
* **C111** Marked members are reported. Violated by marked methods (as in examples/torvalds_sim.py): the reporter is the name of the member, so the bound method is recorded in every row and never called. Proved for properties, for members that are not marked and for other reporters.
  * `C111_method_false`: C111 is false for methods: if `@report` is applied to a method, the rows hold the bound method itself and never the value that the method returns (unless an attribute of the instance hides the method).
* **C112** Logging does not change what a simulation does. Violated in two ways: a message with a keyword argument raises when the logger is enabled for it, and a step raises under DEBUG when the last value of a reporter cannot be formatted with a width (None, for example). Proved for messages without keyword arguments and for reporters with formattable values.
  * `C112_kwargs_false`: C112 is false: a message with a keyword argument raises when the logger is enabled for its level, and everything after it is skipped; when it is not enabled the code goes on.
  * `C112_step_false`: C112 is false for steps: if a reporter gives `None` in a step that otherwise succeeds, the step raises when the logger is enabled for `DEBUG` and returns when it is not; in both cases the data of the step has been collected.
* **C113** Agents from dictionaries. Violated when something has to be left out: the message uses an undefined name. Attributes that the constructor takes as keyword arguments are left out as well. Proved for named parameters and without the message.
  * `C113_ignored_false`: C113 is false: if some key is not a named parameter and the message is not disabled, no agent is made: `NameError`.
  * `C113_kwargs_false`: C113 is false for attributes that a class takes as `**kwargs`: a state attribute of a `BaseAgent` is either refused with `NameError` or, without the message, not passed on, although the constructor would accept it.
* **C114** Equality of agents. Violated by agents of different environments with the same id and state, which are equal. Proved: equality is sameness of public attributes, an equivalence, compatible with hashes, and agents with different ids are different.
  * `C114_twins_false`: C114 is false: agents of different environments are equal if their ids and their other public attributes are, whatever their models, their loggers, their classes and their private attributes.
* **C115** Parameters become attributes of the environment. Violated by parameters with the name of a read-only property (now, get_agents, network_agents, agent_types): the constructor raises. Proved for all the others.
  * `C115_readonly_false`: C115 is false for parameters called like a read-only property, such as `now`: no environment can be made with them.
* **C116** Log level of an agent class. Violated by every level in the body of an agent class: it becomes a default, which is set after the level is looked up. Proved for a level inherited from a class that is not an agent class.
  * `C116_body_false`: C116 is false: a `level` in the body of an agent class never reaches the logger of its agents, because it is a default, and defaults are set after the level is looked up; whatever the body, unless a function or property is called `level`, or the class inherits the attribute from a class that is not an agent class.
* **C118** The odd agent runs at odd times. Violated: the agent acts at time 0, the time of its first activation, which is even. Proved: afterwards it acts at the odd numbers exactly; and added at an odd time it acts at odd times only.
  * `C118_odd_false`: C118 is violated: "Agent that only executes in odd t_steps" (examples/custom_timeouts/ custom_timeouts_sim.py:18). In the environment of the example the agent runs at time 0.
* **C121** Occupancy counts the patrons inside. Violated: befriending gives patrons an edge to themselves, so they are members of their own group and counted twice when they enter. Proved: nobody is inside without being counted.
  * `C121_occupancy_false`: C121 is violated: in the example (a network without edges in the beginning), whatever the schedule and the random numbers, every patron inside a pub is counted twice: the occupancy is not the number of patrons inside unless the pub is empty.
* **C122** Befriending connects two patrons. Violated: self.add_edge(self, other) connects the patron with itself; two different patrons never become neighbors. Proved: a patron only goes on after somebody accepted.
  * `C122_friends_false`: C122 is violated: in the example two different patrons never become neighbours, whoever befriends whom.
* **C124** Who goes home leaves the pub. Violated: nobody calls exit, which would raise for every patron; the occupancy of a pub never decreases. Proved: the police gets drunk patrons home.
  * `C124_leaves_false`: C124 is violated: in the example whoever is at home is still in a pub, and still counted there.
  * `C124_exit_false`: C124 is violated: leaving (`CityPubs.exit`) raises for every patron.
  * `C124_stays_full_false`: C124 is violated, for any network: the occupancy of a pub never decreases, so that a pub that is full stays full whoever goes home.
* **C128** The versions of the virus model agree. soil_step.py and mesa_basic.py agree for all runs; violated by soil_states.py, where an infection is reported only after the next activation of the infected agent.
  * `C128_states_false`: C128 is violated by the version with states: an agent that is infected only counts as infected after its own next activation (an agent that was already activated in this step is reported as susceptible). For a pair of agents, when the first one is infected and passes the virus on, the other versions report two infected agents and this one reports one.
* **C130** Births. Basic version: violated whenever the father is alive (TypeError after the first baby), proved if he is dead. Improved version: violated if the father is dead (ValueError), proved if he is alive.
  * `C130_basic_false`: C130 is false in the basic version: after any run, if the father is alive, the birth ends with an exception after the first baby (`self.model.agents[self.mate]` raises `TypeError`), the offspring is not counted and the mother remains pregnant.
  * `C130_improved_false`: C130 is false in the improved version: if the father has died, the birth ends with an exception (`ValueError` of `add_edge`) after the first baby.
* **C131** One litter per mating. Proved for the basic version; violated by the improved version, where conception is never reset.
  * `C131_improved_false`: C131 is false in the improved version: `conception` is never reset, so that a mother that has mated once has a litter with every second activation for the rest of her life: `k` litters in `2 k` activations, without any mating.
* **C135** The custom generator makes simple graphs. Nodes and absence of loops proved; violated in the number of edges: an edge drawn twice counts once.
  * `C135_exact_false`: C135 is false as documented (`n_edges` edges): for every number of nodes and every `n_edges` of two or more, there are random numbers with which only one edge is made.
  * `C135_many_false`: C135 is false for more edges than there are pairs: it never makes as many as asked for.
* **C137** Wise viewers can be cured. Violated: has_been_cured is not defined, so every activation of an infected wise viewer raises AttributeError.
  * `C137_cured_false`: C137 is false: with viewers as they are made by the environment, nobody is ever cured, and every activation of an infected wise viewer raises (`has_been_cured` is not defined).
* **C138** The default probabilities of the news example can be used. Violated: the defaults end with commas and are tuples (TypeError); proved if the probabilities are given.
  * `C138_defaults_false`: C138 is false: if `prob_neighbor_spread` is not given, an infected viewer (not wise) with a neutral neighbour raises `TypeError` when it is activated, whatever is drawn; if `prob_tv_spread` is not given, so does a neutral viewer with a TV set.
* **C139** Geographical search finds exactly what is near. Proved if all matching agents are network agents and the own node has a position; otherwise it raises (AttributeError, KeyError). Exact squared distances instead of floating point.
  * `C139_other_agents_false`: C139 is false in environments with other agents: as soon as a scheduled agent without a node satisfies the criteria, the search raises, wherever the agents are.
  * `C139_no_position_false`: C139 is false if the own node has no position but the node of another agent found has one: `KeyError`.
* **C142** Belief changes only by interaction. Violated if the civilian has neighbours: the mean of no beliefs counts as 0; proved without neighbours.
  * `C142_no_interaction_false`: C142 is false: a civilian with neighbours that interacts with none of them loses some of its belief: the mean of no beliefs counts as 0.
* **C143** Terrorists are influenced by their group. Violated always: the mean is computed and thrown away; only whether there is a group matters.
  * `C143_influence_false`: C143 is false: what the neighbours believe makes no difference to a terrorist: whatever the other agents' beliefs are changed to, its belief after the activation is the same (unless one of the two raises, which they do together).
* **C144** Terrorists of the network model can act. Violated always: super().terrorist() calls a state, which raises; proved for runs in which no terrorist or leader acts. update_relationships is not modelled.
  * `C144_network_false`: C144 is false: persons of the class `TerroristNetworkModel` raise with every activation as a terrorist or leader; as long as nobody raises, no terrorist or leader has been activated.
* **C145** Centralities are those of the current network. Violated: both caches share _last_step; proved if only one of the functions is used.
  * `C145_stale_false`: C145 is false: after `degree` has been called at the current time, `betweenness` uses the centralities of an old network, as soon as it was called once before, however often the network has changed.
  * `C145_stale_degree_false`: C145 is false the other way round as well: `betweenness` makes the degrees look up to date.
* **C149** Lazy drivers prefer near intersections. Violated with a travel time 0 (ZeroDivisionError); proved for positive travel times, in exact arithmetic.
  * `C149_zero_false`: C149 is false if a street takes no time: then a lazy driver next to it raises (`ZeroDivisionError`).
* **C150** Square cities can be simulated. Violated: self.max_weight is read before it is set, and grid_graph is no multigraph, so that travel_time raises; proved for at most one intersection, without drivers acting.
  * `C150_square_false`: C150 is false: a square city with more than one intersection cannot be made.
  * `C150_simple_false`: C150 is false even for streets without parallel edges in general: whatever the graph, the first activation of any driver raises.
* **C151** Drivers can be sent to a position. Violated with gradual_move: delay is unbound, and the occupation of the edge is already increased; proved without gradual_move.
  * `C151_move_to_false`: C151 is false with `gradual_move`: `move_to` with a position always raises, with the driver left where it was; if the position is next to it, the street has a driver more than there are on it, from then on.
* **C157** Destinations are in the grid. Violated on every grid that is not square: the destination is drawn as (below height, below width), so it may be outside, and its passenger is never delivered; proved for square grids with at least two cells per side.
  * `C157_reachable_false`: C157 is false on every grid that is not square: among the destinations that `asking` may draw (first coordinate below the height, second below the width) there is one outside of the grid, and a passenger that drew it never gets there and its driver is never paid.
* **C158** The grid knows where agents are. Violated for passengers: their pos is assigned without grid.move_agent, so the grid keeps them where they started; proved for drivers and for passengers that were not picked up.
  * `C158_passengers_false`: C158 is false for every passenger that was driven somewhere else: the grid still has it in the cell where it started, not where it is.
* **C163** break_state stops before the state. Violated for every state declared with @state (AttributeError, since a state has no __code__); violated for a second command at the same line; proved for plain functions without a breakpoint.
  * `C163_declared_false`: C163 is false: for a state declared with `@state` the command raises `AttributeError` (a state has no `__code__`), whatever breakpoints there are and whichever agents are given; no breakpoint is set.
  * `C163_any_false`: C163 is false also if no class is given, as soon as one of the machines in sight declares the state.
  * `C163_second_false`: C163 is false: a second command for another agent does nothing, since there is a breakpoint at the line.
  * `C163_missing_false`: C163 is false: if the class has no such state, `continue_state` says so and continues without any breakpoint.
* **C164** break_step stops before the next step. Violated between two steps (also where --debug stops: the first step is skipped), inside agents (KeyError), and with a model left by an earlier command; proved in the middle of a step if the variable model is the current model.
  * `C164_between_false`: C164 is false between two steps, for instance where `--debug` stops before the first one (soil/simulation.py:271-272): the next step is not a stop, since the number of steps is not yet above; the one after it is.
  * `C164_agent_false`: C164 is false inside an agent: its frame has no variable `model`; unless an earlier command has left one, `KeyError` escapes.
  * `C164_stale_false`: C164 is false: the variable that an earlier command has left may be another model, of an earlier iteration; then its number of steps counts, and no step up to it is a stop.
* **C165** The debugger shows the current agent and model. Proved in methods of models and agents; elsewhere violated, because the commands overwrite the global variables of the module.
  * `C165_stale_false`: C165 is false elsewhere: after a command in a method of an agent, in a frame that has nothing to do with it, that agent and its model are shown as the current ones.
  * `C165_none_false`: C165 is false: without any agent before, `NameError` escapes; "No agent available" is not said.
* **C166** break_state_self is about the current agent only. Violated for declared states and for classes that the frame does not know by name; proved for plain functions otherwise.
  * `C166_hidden_false`: C166 is false: a class that the frame does not know by its name (for instance in a method inherited from another module) is a `NameError`; a declared state is an `AttributeError`.
* **C167** A simulation is found by its name. Proved for the default output directory and simulations without a group; otherwise always another file.
  * `C167_elsewhere_false`: C167, violated for a simulation with a group, and for every other output directory: `read_sql(name=…)` opens another file.
* **C168** read_sql accepts a path, a URL or a name. The check of the arguments is proved; URLs are never recognised, because os.path.abspath has removed the double slash.
  * `C168_url_false`: C168, violated: a URL of a database is never opened; it is taken for a file, whatever it is.
* **C169** What was exported to SQLite is read back. Violated without agent reporters, without parameters, and (as to the parameters) if an iteration occurs twice; proved otherwise.
  * `C169_no_agents_false`: C169, violated without agent reporters: the table `agents` is not written, and `read_sql` raises, even though the agents were not asked for (`include_agents` is not looked at).
  * `C169_no_params_false`: C169, violated without parameters: the table of the parameters has no columns for the identifiers, and `read_sql` raises `KeyError`.
  * `C169_twice_false`: C169, violated when a combination of simulation, parameters and iteration occurs twice (the same simulation run twice into the same file; a combination of the matrix that is equal to `parameters`): if all have some parameter in common, the parameters are not pivoted.
* **C170** Reporters and tables may have any names. Violated for reporters called step, params_id, simulation_id or iteration_id and tables called env; with other names, that are the same in all iterations, everything can be written.
  * `C170_step_false`: C170, violated: a model reporter called `step` makes every write of an iteration raise.
  * `C170_overwritten_false`: C170, violated: what a reporter called `params_id`, `simulation_id` or `iteration_id` reports is lost; every row has the identifiers of the iteration there.
  * `C170_env_false`: C170, violated: a table of the user called `env` takes the place of what the model reporters have recorded; none of it is written.
* **C171** The log of a simulation is shown on the web page. No record reaches the page, except for simulations called soil (or soil.soil, …): the handler is added to the logger with the name of the simulation, but the simulation logs to soil.<name>.
  * `C171_lost_false`: C171 (violated): no record of a run reaches the handler of the page, whatever logger of the run it is (`sub`), because the loggers of a simulation are below `soil` and the handler is not; unless all parts of the name are `soil`.
* **C172** Captured lines are sent in order and at most once. Violated if something is logged between truncate(0) and seek(0); proved for all other interleavings.
  * `C172_garbled_false`: C172 (violated): a line can be sent that nobody has logged: what is written between `truncate(0)` and `seek(0)` comes after null characters.
* **C173** No captured line is lost. Lines logged during an update, or after the last one, are lost; proved between two updates if nothing is logged during an update.
  * `C173_end_false`: C173 (violated): what a run logs after the last update before its end is never sent. In particular a run that is over before the first timer fires (half a second) sends nothing at all, whatever it logs.
  * `C173_race_false`: C173 (violated): a line that is logged while `update_logging` is sending is lost, although the run goes on.
* **C174** Runs of a connection do not disturb each other's log. The end of a run closes the buffer in use, which is that of the latest run; proved until a run begins or ends.
  * `C174_overlap_false`: C174 (violated): when a run is over, nothing is sent any more until another one begins, even if other runs go on and log: their buffer is closed, and the updates end.
* **C175** A configuration can be run from the web page. No results are ever sent: the page insists on environment_params, which Simulation does not accept. Configurations are accepted and started.
  * `C175_results_false`: C175 (violated): whatever the client sends, and whatever the simulations return, no trials and no graphs are ever sent: the parameters must be called `environment_params` for the page, and `Simulation` does not accept these.
* **C177** A wrong message does not end the connection. Exceptions in on_message close the connection; only several configurations get an error as an answer.
  * `C177_closed_false`: C177 (violated): these messages of a new connection close it without an answer: a file without configurations, a configuration without a name, a run or a request for a trial before there is a configuration.
* **C178** The options of soil-web are respected. --port and --dump are ignored, --name is shown as a list.
  * `C178_ignored_false`: C178 (violated): the server listens on port 8001 if another one is given, and does not dump if told so.
  * `C178_name_false`: C178 (violated): a name that is given is shown as a list.
* **C179** plot draws what the model has collected. steps=True always raises, and so do models without reporters of their own or with one called step; proved otherwise.
  * `C179_steps_false`: C179 (violated): `plot(env, steps=True)` raises for all models: the column `time` is not there, because it is the index.
  * `C179_builtin_false`: C179 (violated): a model without reporters of its own cannot be drawn: after `agent_count` and `step` are dropped no column is left.
  * `C179_step_false`: C179 (violated): a model with a reporter called `step` cannot be drawn.
* **C180** plot counts the agents for each value. Proved for one agent reporter; the values of several reporters are counted together.
  * `C180_mixed_false`: C180 (violated): with two agent reporters the values of both are counted together: here two agents, and each counts twice.
* **C182** The page for notebooks draws the space and the measures. Without measures (the default) the page raises; proved for a list of measures.
  * `C182_default_false`: C182 (violated): without measures, which is the default, nothing can be drawn: the page raises.
* **C183** A configuration survives being written and read. Lists of numbers become lists of texts, lists of pairs become dictionaries, classes in parameters become texts; the configurations that survive are characterised exactly.
  * `C183_numbers_false`: C183 is violated for lists of numbers, as in every matrix: the numbers come back as texts.
  * `C183_pairs_false`: C183 is violated for lists of lists of pairs: they come back as dictionaries, where the second of two equal keys wins; and an empty text in a list comes back as an empty dictionary.
  * `C183_classes_false`: C183 is violated for classes in parameters: the model gets a text instead.
* **C184** Classes of a written configuration are found again. Proved for classes that can be found by module and name; exporters defined in a source that is not a module are lost.
  * `C184_source_false`: C184 is violated for exporters that are classes of a module that cannot be imported by its name, such as those in the source file of a simulation (their module is only known while the file is being used): the simulation that is written has them, the one that is read does not.
  * `C184_builtin_false`: C184 is violated for built-in types: their names stand for them, but what is written for them in a list, `<class 'int'>`, is not found when it is read.
* **C185** Writing a configuration does not change it (the property itself is proved; its premises are needed). serialize_dict itself changes the lists that it is given; to_dict gives it a deep copy.
  * `C185_serialize_false`: `serialize_dict` itself does change the lists that it is given.
* **C186** Decorators of states are respected. Proved with state as the innermost decorator; if default_state is below state, it is silently ignored.
  * `C186_order_false`: C186 is violated if `state` is above `default_state`: then the state is not the default state; a class whose other states are not default either has no initial state, and making an agent of it fails.
  * `C186_twice_false`: C186 is violated by a second `state`: without a name, the class cannot be declared; with a name, there is a state with that name, but its function is not the one that was decorated: calling it raises.
* **C187** Declaring a class does not change other classes. Proved for class bodies whose states are made of functions; default_state(Base.x) marks the state of the base, which changes all classes that have it.
  * `C187_default_state_false`: C187 is violated by `default_state(Base.x)` in the body of a class: it marks the state of the base. So every class that has this state is changed, even though nothing in its own declaration is.
* **C188** A customised class differs from its template only in the attributes given. What is given for the attributes of every agent (name, ...) or for names of methods is ignored.
  * `C188_ignored_false`: C188 is violated for the attributes that every agent has, such as `name`, and the names of methods and properties, such as `prob`: what is given to `w` is ignored.
* **C189** A customised class has the states of its template. The states are the same; the initial state is if there is at most one default state in the hierarchy.
  * `C189_several_false`: C189 is violated: a class whose default state `s` replaces the one of its base, but stands before it in the order of states, starts in `s`; its customised versions start in the default state `t` of the base.
  * `C189_lost_false`: C189 is violated: if a class replaces the default state of its base by a state that is not default, then its agents can be made (they start in the replaced state), but agents of its customised versions cannot.
* **C190** A customised class is found by its name. The module of a customised class is abc, so its name stands for the template or for nothing, unless it is assigned to a variable of a known module.
  * `C190_never_false`: C190 is violated by every customised class: as no module has the new class as an attribute, reading its name again does not give that class, whatever the modules are.
  * `C190_template_false`: C190, what the name of a customised class stands for, if the first known module that has the name of the template is the one with the template: the template, without what was given to `w`.
  * `C190_unknown_false`: C190, for templates that no known module has, such as those of the script: the name of the customised class cannot be read at all, because it says that the class is in the module `abc`, which does not have it.
* **C191** No agent starves. Proved if all activations wait at least some fixed delay and finitely many agents are added; agents that wait less and less, or that keep adding agents, starve others for ever. The theorems about PQueueActivation are about populations added at time 0 (see C12).
  * `C191_zeno_false`: C191 is violated by agents that wait less and less: agent 1 waits for the time 2, and never is activated again, because agent 0 is active at ever later times before 2.
  * `C191_additions_false`: C191 is violated by agents that keep adding agents: these are due at once, so the time does not advance, and agent 0, which waits for the time 1, never is activated again.
* **C192** A subgraph has the nodes of the chosen agents. Proved for criteria that select network agents, and with limit_neighbors without exception; one selected agent without node_id makes subgraph raise.
  * `C192_others_false`: C192 is violated: one agent without a node that satisfies the criteria is enough to make `subgraph` raise, for every agent.
* **C193** Edges have the attributes given. The attributes given are never set: the dictionary becomes the value of an attribute edge_attr_dict.
  * `C193_attributes_false`: C193 is violated: whatever attributes are given, the edge has none of them; only `edge_attr_dict` is set, to the whole dictionary.
  * `C193_positional_false`: C193 is violated: with further positional arguments the call always fails.
* **C194** add_agents fills a network. The number and the classes are right; free nodes may be missed, and with a topology there is a KeyError after the first agent.
  * `C194_topology_false`: C194 is violated: with a `topology`, `add_agents` raises (`KeyError: None`) after having added one agent.
  * `C194_nodes_false`: C194 is violated: on a free network of three nodes `add_agents` with a network class may leave two nodes free and create two others instead.
  * `C194_raised_false`: C194 is violated if the `init` of an agent raises: `add_agents` raises, the agents before it stay in the schedule, and the failed one, which is not scheduled, stays on a node of the network.
* **C195** Agents are on the nodes they are given. For constructors that do not pass on node_id (social wealth example) the nodes know their agents, but the agents take themselves to be elsewhere.
  * `C195_elsewhere_false`: C195 is violated (the agents of the social wealth example): the agents are put on the nodes 0, 1 and 2, but take themselves to be on 1, 2 and a node 3 that did not exist; so the neighbours of the first one are itself and the third one.
* **C196** Timed blocks are reported. Holds for code that raises no exception; a block that raises is never reported as finished, and objects that count as false are not told the times.
  * `C196_exception_false`: C196 is violated: when the block raises an exception, it is not reported when it ends, and the object given is not told.
  * `C196_object_false`: C196 is violated: an object that counts as false (an empty collection, say) is not told either.
* **C197** easy runs a simulation and hands over its results. easy is decorated as a context manager but does not yield: the block of a with statement is never executed. A plain call runs the simulation.
  * `C197_with_false`: C197 is violated: whatever `main` does, the block of `with easy(...)` is not executed, and an exception is raised after the simulations have been run.
* **C198** The options of the debugger are respected. The debugger is made once, with the options of the first call; skip raises TypeError; the traceback given to post_mortem is ignored.
  * `C198_skip_false`: C198 is violated: a debugger cannot be made with modules to skip; the list of the caller is changed nevertheless.
  * `C198_later_false`: C198 is violated: the options of later calls have no effect.
  * `C198_traceback_false`: C198 is violated: the traceback given to `post_mortem` is not shown: it raises when no exception is being handled, and shows the one that is being handled otherwise.
* **C199** Writing a graph to a file does not change it. What is written is right; the graph loses the positions of its nodes.
  * `C199_changed_false`: C199 is violated: writing a graph removes the positions of its nodes, if only from the nodes before one that cannot be written; what a node said about its picture before is lost.
* **C200** A dry run shows what would be written. The content is right for writes that suit the mode; others are accepted although the real file would raise, and copies contain the name of the file before every piece.
  * `C200_mode_false`: C200 is violated: a dry run accepts what the real run raises `TypeError` for, without having written it.
  * `C200_copy_false`: C200 is violated: what is copied is not what would have been written: a text written in two pieces is copied with the name of the file in between.
* **C201** Different seeds give different numbers. Proved for seeds that do not end in NUL.
  * `C201_nul_false`: C201 is violated: a seed and the same seed with a NUL character at its end give the same number; so does the empty seed.
* **C202** The log of a run is polled once per interval while it lasts. Holds for the first run of a connection. A run that begins within half a second after another one is polled twice for ever; of overlapping runs the polling ends with the first that ends.
  * `C202_two_polls_false`: C202 is violated: if a run begins within half a second after the end of the last one, then the call that is still scheduled goes on as well, since logs are captured again. From then on two chains of calls poll the log of the one run, as long as it lasts.
  * `C202_overlap_false`: C202 is violated: if two runs overlap, the polling ends with the first one that ends, although the other one goes on.
* **C203** The scheduler keeps its guarantees with the numbers of Python. The positive theorems hold as long as no delay is lost by rounding, which is so while the time stays below 2**k and delays are at least 2**(k-53). The next activation is at the rounded sum, and at the exact one for multiples of 2**-j below 2**(53-j). Violations: three delays of 0.1 are not 0.3; a delay of 1.0 at 2**53 is lost and time stands still for ever; an integer clock beyond 2**53 goes backwards with a float delay; at(0.9) at 0.3 wakes up later than 0.9.
  * `C203_drift_false`: C203, violation: three delays of 0.1 do not make 0.3: an agent that waits 0.1 each time and one that waits 0.3 do not meet.
  * `C203_stall_false`: C203, violation: at `2 ** 53` a delay of 1.0 is lost. The agent is activated again and again at the same time: time stands still for ever, however many steps are made.
  * `C203_mixed_false`: C203, violation: with an integer clock beyond `2 ** 53` and a float delay, time goes backwards: the clock is rounded down before the sum.
  * `C203_at_false`: C203, violation: `at(t)` (soil/agents/__init__.py:296-297) is a delay of `t - now`, and the scheduler adds `now` to it; with floats that is not `t`: `at(0.9)` at time 0.3 wakes up at 0.9000000000000001, after an agent that waits 0.9 from the start.
* **C204** The priority queue can always compare its entries. Holds without shuffling if no two agents have the same unique_id, and with shuffling if the generator never gives the same number twice. Violation: entries are (key, agent), so a tie of keys compares the agents; agents cannot be compared, the addition raises TypeError, the agent is not among the agents but in the queue, acts in the next step and makes that step raise too. In any case no entry of the heap is lost (C204_kept).
  * `C204_tie_false`: C204, violation: `random()` may give two agents the same number, and with `shuffle=False` two agents may have the same `unique_id`. If they are due at the same time, adding the second one raises `TypeError`. It stays in the queue, but is not among the agents. It acts in the next step, which raises as well when it schedules the agent again: the time stays where it is.
* **C205** A configuration of agents yields the agents that it asks for. Violations: soil.config has no AgentConfig, so every call raises AttributeError. If the classes are assumed to be there, the agents are as asked for (with positive weights and enough room), but nodes that are left over raise NameError (the name assigned does not exist) and agents for the total go to the topology by default although all nodes are taken.
  * `C205_missing_false`: C205, violation: `soil.config` has no `AgentConfig`, so `from_config` raises `AttributeError` for every configuration.
  * `C205_warning_false`: C205, violation: even with the classes, nodes that are left over raise `NameError` instead of a warning: with kinds for the total only and a topology that the agents given one by one do not fill, nothing is returned.
  * `C205_overfull_false`: C205, violation: agents for the total are put in the topology as well if that is the default, although all nodes are taken: two agents for one node.
  * `C205_zero_false`: C205: a kind with the weight 0, whether for nodes or for the total, is an error (a division by zero), and not a kind without agents.
* **C206** With the numbers of Python, a Lockstepper covers exactly one interval per step. Violations: with the interval 0.1 three steps run an agent that is due at 0.3; with the interval 1.0 the clock stands still from 2**53 on. It holds for integers and for multiples of powers of two; in general the drift is bounded.
  * `C206_early_false`: C206, violation: three steps of 0.1 run an agent that is due at 0.3, which is not before the end of the third interval.
  * `C206_stall_false`: C206, violation: from the time `2 ** 53` on, a `Lockstepper` with the interval 1.0 stands still: its steps are counted, but its clock does not move and the agent that is due is never run.
* **C207** Agents may die or be added while an agent iterates over the agents. Violations: a loop over iter_agents whose body kills or adds an agent raises RuntimeError and leaves the others out; and it looks at the criteria late, so the body can change who is visited. Loops over get_agents are not affected.
  * `C207_removed_false`: C207, violated: for every body without `break` and every population, if in the end there are more or fewer agents than in the beginning, the loop over `iter_agents` has raised `RuntimeError`.
  * `C207_first_false`: C207, violated: as soon as the body has killed somebody the loop is over, and the remaining agents are not looked at.
  * `C207_late_false`: C207, violated in every version of Python: `iter_agents` looks at the criteria late, so an agent that satisfies them when the loop begins is left out if the body has changed it before its turn; `get_agents` does not leave it out.
* **C209** Matings, litters and children of the improved rabbits. Violation: conception is never reset, so after one mating a female has a litter again and again, without a father. Everything else holds: every litter is preceded by a mating at least one gestation before.
  * `C209_once_false`: C209, what one would expect and what is violated: between two litters of a female there is a mating. After one mating at 2 she has litters at 4, at 6 and at 8.
* **C211** Accidents kill every improved rabbit with the same probability. Violation: RuntimeError escapes as soon as an accident kills a rabbit, in versions of Python in which the agents cannot be removed while they are iterated; it holds in the others.
  * `C211_frozen_false`: C211, violated in the versions of Python for which soil was written: as soon as one rabbit is to die by accident `RuntimeError` escapes from the step of `RandomAccident`.
* **C212** No exception escapes from the improved rabbits. Violations: add_edge raises ValueError when the father of a litter has died before the birth; RuntimeError in accidents. These are the only exceptions.
  * `C212_orphan_false`: C212 is violated: the father of a litter dies before it is born; `child.add_edge(self.mate)` raises `ValueError`, which leaves the simulation. Agents may be removed while they are iterated in this run.
  * `C212_accident_false`: C212 is violated: an accident that kills a rabbit, in the Python versions for which soil was written.
* **C214** The inherited methods of a dictionary work on agents. Violated: popitem, clear and values raise TypeError because __iter__ gives pairs, update with another agent raises TypeError, and pop/setdefault see the attributes of the class. Proved: refinement for get/set/del/in/len/pop/setdefault/update on names that the class does not have.
  * `C214_popitem_false`: C214 is false: `popitem`, `clear` and `values` of an agent with at least one key (every agent has `unique_id`) raise `TypeError`, and nothing is removed.
  * `C214_update_false`: C214 is false: `update` with another agent raises `TypeError` and changes nothing.
  * `C214_class_false`: C214 is false: with a name found on the class, `pop` raises `AttributeError` even if it is given a default, and `setdefault` sets nothing.
* **C215** Messages between agents are conserved. Violated when an exception escapes from process_messages: the inbox is kept and the messages before it are handed out again. Proved for every run without such an exception, and at-least-once, order and expiration for every run.
  * `C215_twice_false`: C215 is false: agent 0 asks agent 1 at times 0, 1, 2, …; agent 1 processes its messages at times 0, 2, 4, …, and raises when it is given the question of time 3; whoever runs it catches the exception. At time 4 it answers the question of time 2 and raises at the one of time 3; at time 6 it is given both again, and the reply to the former, which agent 0 has seen, changes from 3 to 5.
  * `C215_pqueue_twice_false`: C215 is false with `PQueueActivation` as well: agent 1 is given the question of time 3 at time 4, `on_receive` raises, and the step of the agent catches the exception; the question is still in the inbox, and the agent is given it again at time 6.
* **C216** Values survive serialize and deserialize. Violated: infinity is written as inf, which literal_eval refuses, and the type name is not looked at. Proved: the round trip for all other nested values.
  * `C216_inf_false`: C216 is violated by infinity, the time of agents that wait for ever: what is written cannot be read, also inside of lists.
  * `C216_type_false`: C216 is violated in another way: the name of the type is not looked at. Every text that is a literal is read as what it is, whatever builtin type is asked for, except `str` and `None`.
* **C217** Names of agent classes. Violated: every call appends soil.agents to the list of known modules, be it the caller's or the mutable default. Proved: the names are the same after every sequence of calls, and the round trip for classes that can be found by module and name.
  * `C217_grows_false`: C217 is violated: every call makes the list longer, be it the one of the caller or the one that the function keeps.
* **C218** An answer is noticed within one delay. Violated: an answer in the last delay before the deadline is lost because the asker looks only once per delay, and an answer that is false (0, None, empty) is never noticed. Proved: the looks are one delay apart, a reply that is taken is the answer to this question and at most one delay old, and every true answer given more than one delay before the deadline is noticed.
  * `C218_late_false`: C218 is false: the answer comes at 3, before the deadline at 4, but the asker, which looks every two time units, gives up at 4.
  * `C218_falsy_false`: C218 is false in another way: an answer that is false (0, an empty list, `None`) is never noticed.
* **C219** PQueueActivation keeps its guarantees with the numbers of Python. Violated: a delay that is lost by rounding (1.0 at 2**53) leaves the agent at the head of the queue, and the step never ends. Proved for every execution in which no delay is lost: every step ends and runs exactly the due agents, and the next activation is at the rounded sum. Below 2**k no delay of at least 2**(k-53) is lost, k <= 53.
  * `C219_endless_false`: C219, violation: at `2 ** 53` a delay of 1.0 is lost, and the agent stays at the head of the queue. The second step never ends: however many activations it makes, it is not finished (with the default scheduler every step ends, C203).
* **C221** The step of a class may call the step of another class. Proved if at most one of the classes has a generator or coroutine; a generator that calls the step of another generator always raises, and of two generators called in turn the second call resumes the first.
  * `C221_nested_false`: C221 is violated by a generator that calls the step of a class with a generator (`super().step()` in the generator of a subclass of `FSM`): the call always raises, no matter what the class does, and none of its code is run.
  * `C221_two_false`: C221 is violated by a class that calls the generators of two base classes in turn (`A.step(self); B.step(self)`): when the first one has yielded, the second call resumes the first generator again instead of running the step of the second class.
* **C222** The default interval of a model is what its class declares. model.interval is read instead of model.default_interval: an environment whose class declares default_interval cannot be made, and the parameter has no effect.
  * `C222_raises_false`: C222 is violated by every environment whose class declares `default_interval`, but nothing called `interval`: it cannot be made at all.
  * `C222_other_false`: C222 is violated if the class has an attribute `interval` with another value: that one is used instead of `default_interval`.
  * `C222_param_false`: C222 is violated if `default_interval` is given as a parameter of the environment: the attribute has the given value in the end, but it is only set when the scheduler has already been made, whose interval is 1.
* **C223** Whole simulations of the virus benchmark run the agreed number of steps. If everybody is resistant before MAX_STEPS, nobody is left in the scheduler, steps are no longer counted and the benchmark loops for ever.
  * `C223_hangs_false`: C223 is violated as soon as everybody is resistant before the last step: the scheduler has nobody left, its steps are not counted any more and nothing stops the loop: the benchmark runs for ever, however long we wait.
  * `C223_states_hangs_false`: C223 is violated in the same way by the version with states, one step later.
* **C224** A delay that is not a number does not disturb the simulation. Violated: with TimedActivation an agent that asks for NaN, and every agent added while the clock is NaN, acts from then on only while the clock is NaN; a delay of inf is not the end then; a run with max_time never ends if only such agents remain. With PQueueActivation the step itself never ends, or other agents are woken late. Proved for TimedActivation: agents that have nothing to do with NaN are woken exactly when they asked for, and the readings of the clock that are numbers are in order, as long as no exception escapes and no delay is negative.
  * `C224_lost_false`: C224: an agent (added once) that asks for `nan` is never woken again at a time of the clock: whatever it does later happens while the clock is `nan`.
  * `C224_lost_acts_false`: The same agent goes on to act: it is not gone, but not on the clock any more.
  * `C224_newborn_false`: C224: an agent that is added (once) while the clock is `nan` never acts at a time of the clock.
  * `C224_never_false`: Sleeping for ever does not work while the clock is `nan`: `inf + nan` is not `inf`.
  * `C224_endless_false`: C224: when every agent asks for `nan`, a simulation with any `max_time` never ends.
  * `C224_heap_false`: C224: one step of the priority queue never ends when all the agents in it are due and ask for `nan`.
  * `C224_heap_late_false`: C224: with the priority queue the others suffer: agent 3 asks for 2 at time 4 and is still not woken at time 20.
* **C225** Combinations of parameters are told apart in the results. Violated: only seven hexadecimal digits are kept, so among more than 16^7 combinations two share an identifier, whatever the hash function; `parameters` that are also a combination of the matrix are written twice with the same identifiers; for dictionaries as values the order of their items matters. Proved: order of the parameters does not matter; the text before hashing is different for different literal values; without repetitions and without a collision of the digits every iteration has identifiers of its own and is found again by read_sql.
  * `C225_many_false`: C225 is violated: whatever the hash function, among more than `16 ^ 7` parameter sets there are two with the same identifier.
  * `C225_collision_false`: ... so there are always parameters with different values and the same identifier.
  * `C225_repeated_false`: C225 is violated when `parameters` is also a combination of the matrix, in whatever order: the same identifiers are written twice.
  * `C225_nested_false`: C225 is violated for dictionaries as values: the order of their items changes the text, though the dictionaries are equal.
* **C226** Kinds of viewers are chosen with the ratios given. Violated: in three of the nine pairs of the example the third ratio is negative; no exception is raised, and the share of the second kind is not the one given. Proved when no ratio is negative.
  * `C226_negative_false`: C226 is violated when the first two ratios are more than 1 together, so that the third one is negative: no exception is raised, nobody is wise, and of the herd there are only as many as the dumb ones leave: the share `1 - r1` and not `r2`.
  * `C226_pairs_false`: ... which is the case in three of the nine pairs of ratios of the example.
* **C227** What is read from the database is the history of each iteration. Violated by every simulation whose models have no reporters of agents (the default): read_sql raises. Proved for simulations with parameters, reporters of agents and distinct identifiers; for the agents as long as the step number increases.
  * `C227_unreadable_false`: C227 is violated by every simulation whose models have no reporters of agents, which is the default: all iterations return, everything is written to a new file, and nothing can be read, whatever the parameters and the limits.
* **C228** The command line runs the simulations of the file, or tells why not. Violated: with --pdb the exception is swallowed; a missing file is only logged; the argument pdb is ignored; SOIL_POSTMORTEM and SOIL_DEBUG stay set for later calls. The rest is proved.
  * `C228_swallowed_false`: C228 is violated with `--pdb`: after the debugger has been left, `main` returns the results of the simulations before the one that failed, as if there had been no more.
  * `C228_missing_false`: C228 is violated by a file that does not exist: nothing is raised, whatever the options. (The message is only logged.)
  * `C228_pdb_argument_false`: C228 is violated for the argument `pdb` of `main` and `easy`: it is ignored. Whatever is run and however it fails, no debugger is opened for an exception if this is the only thing asked for.
  * `C228_leak_false`: C228 is violated by several uses in one process: once `--debug` or `--pdb` has been given, all later calls of `easy` open the debugger when their simulation raises, though nobody asks for it, and in a new process the same call does not open it.
  * `C228_debug_leak_false`: C228 is violated by several uses in one process: after a call in debug mode that did not raise, all later calls run their simulations in debug mode (in one process, soil/utils.py:144), though nobody asks for it; before, they were run as the environment says.
* **C229** Options of the command line reach every environment. Seed and iterations reach every environment. Violated by --set for simulations with a matrix: the combinations do not get the values, and one more combination is run instead.
  * `C229_set_false`: C229 is violated by a simulation with a matrix (and without other parameters): with `--set`, its combinations are run as before, without the values given, unless the matrix has them anyway; and there is one combination more, which has only the parameters given.
* **C230** Agents that wait one interval are activated in rounds, as in mesa. Proved for all programs that do not change the schedule. Violated when an agent is removed with mesa's schedule.remove (it goes on being activated) and when agents are added in a step (the next step activates only them, at the same time).
  * `C230_removed_false`: C230 is violated by agents that are removed with mesa's `schedule.remove`: they are not in `schedule.agents` any more, and go on being activated in every step for ever.
  * `C230_added_false`: C230 is violated when agents are added in a step: the next step is not a round. It activates the added agents only, once for each time they were added, at the same time as the step before.
* **C233** In a simulation of SISa agents moods spread along the network. Contentment spreads as described; discontent never does (the filter compares a State with the name of a state, and the state content ignores it).
  * `C233_shrinks_false`: C233 is violated: discontent does not spread. Without spontaneous discontent the discontent agents are always some of those that were discontent before, whatever the network, the other parameters, and the order of the agents.
  * `C233_pqueue_false`: C233 is violated with `PQueueActivation` too: without spontaneous discontent the discontent agents are always some of those that were discontent before.
* **C234** In a simulation of the cascade model awareness spreads along the network. States and times as described; neighbours have no influence: the simulation is the same on every network (state_id=1 matches nobody).
  * `C234_network_false`: C234 is violated: awareness does not spread along the network. With the same random numbers the simulation is the same for any two networks and any two probabilities of imitation.
* **C235** TimedActivation obeys its calendar even when agents ask for the past. Holds for all delays except those that lead to the time 0: `when or self.time` takes 0 for missing and the agent is activated at the present time again. Obeying the calendar means that agents that go back can keep the others waiting for ever; the run never ends.
  * `C235_zero_false`: C235 fails for the time 0: the agent was activated at 1 and asked for 0 (`1 + -1`), but `when or self.time` takes 0 for "not given" and it is activated at 1 again, and again: no run up to the time 2 ever ends.
  * `C235_starves_false`: C235, what obeying the calendar does not give: agent 1 has asked for the time 4 and waits for ever, because agent 0 goes back from 3 to 1 again and again. After any number of steps that wake-up is pending, agent 1 has only run at 0 and 2, and no run up to the time 4 ever ends.
* **C236** PQueueActivation never goes back in time. The clock and the wake-ups are as described; an agent that always asks for the past makes a single step endless, and wake-ups in the past are late (unlike with TimedActivation, C235).
  * `C236_exact_false`: C236, the contrast with `TimedActivation` (`C235_exact_partial`): the wake-up is not when it was asked for; the agent that was activated at 3 and asked for `3 - 2` is activated at 3 again.
  * `C236_endless_false`: C236, the other side: with an agent that always asks for the past a single step never ends.
* **C237** Whole simulations of the social wealth model keep the money, collect it, and use the links. Holds from the first step on for grids with more than one cell. The model replaces soil's collector after the constructor has collected, so the row of the start is lost, and without a column `time` model_df() and agent_df() raise. The class of agents does not pass on its node, so agents take themselves to be elsewhere; if the first one does, it never gives anything to the others.
  * `C237_frames_false`: C237 is violated (the data): the row of the start is not there (see the theorem above), and after any number of steps `model_df()` and `agent_df()` raise, because the collector has no column `time`. The exporters, which do not use them (soil/exporters.py:96-114), find one row for each step.
  * `C237_sink_false`: C237 is violated (the links): if the first agent happens to take itself to be on another node than 0, where it is (the first number drawn when agents look for a node decides), then the agents on the star, which are all linked with it, never get anything from it: from step to step it has at least as much as before, and everybody else at most as much.
  * `C237_single_false`: C237 is violated (the smallest grid): with a single cell there is nowhere to go, and the first step raises.
* **C238** Whole simulations of the city: drivers travel along the streets, for the travel times, and do not rest. A delay of 0 is a whole default interval for the scheduler: a driver rests for an interval at every intersection, and a street that takes no time takes an interval. Without drivers and with lockstep=True the first step never ends. The rest holds for all cities in which one can drive; that the steps with lockstep end, for those with a shortest travel time.
  * `C238_rest_false`: C238 is false: a driver asks for a delay of 0 when it has arrived, and waits a whole interval. However far it has got, and whatever chance decides, it is not free again before the sum of the travel times plus an interval for each intersection; without `gradual_move` it needs exactly an interval for each, whatever the travel times.
  * `C238_empty_false`: C238 is false without drivers (`n_assets=0`), with `lockstep=True`: the first step of the environment never comes to its end.
* **C239** Whole simulations of the pub crawl: everybody finds friends, gets into a pub if there is room, and gets home. The last patron who looks for friends never finds any, since those who have found some do not look any more; and each pub only ever admits half as many patrons as it has places, since everybody is counted twice and nobody leaves. The times, and that nobody waits while there is room, hold; for patrons that refuse nobody the outcome is determined.
  * `C239_alone_false`: C239 is violated: there always is a patron who looks for friends for ever, whatever the patrons are like, since nobody can befriend the last one: those who found a friend do not look for friends any more.
  * `C239_places_false`: C239 is violated: however long the simulation takes, in each pub at most half as many patrons as its capacity ever drink (everybody is counted twice, C121, and nobody leaves, C124), although those before them are at home.
  * `C239_pqueue_false`: C239 is violated with `PQueueActivation` too: somebody looks for friends for ever, and at most half as many patrons as the pubs hold ever drink.
* **C240** Whole simulations of the news example: the news reaches everybody who is connected with a TV set in time, and nobody sooner than it can. A wise viewer that hears the news raises at its next activation (has_been_cured is not defined), so with one wise viewer with a TV set and probability 1 no simulation gets beyond the second step; and the example never sets has_tv, so in its own simulations nothing ever happens. Without wise viewers, and with the probabilities given, the run, the speed and (dumb viewers) the arrival of the news hold for both schedulers.
  * `C240_wise_false`: C240 is violated by wise viewers: if one of them has a TV set and the probability of the TV is 1, every simulation raises in the first two steps, with either scheduler, whoever the other viewers are (`has_been_cured` is not defined, see C137).
  * `C240_silent_false`: C240 is violated by the simulations of the example: they never set `has_tv`, and then nothing ever happens, whatever the probabilities: after any number of steps all viewers are as they were made; the run of `max_steps` steps returns.
* **C241** A terrorist without civilian friends makes one relationship with a civilian who is near, or none. get_agents ignores the ids it is given, so agents at any distance are considered, in the order of their ids, and the loop either links with an agent of smaller id or divides by zero when it reaches the agent itself. What holds: nothing is done with a civilian neighbour; a new link is with a civilian who was no neighbour, drawn with the computed probability, and only this edge is added.
  * `C241_raises_false`: C241 is false: a terrorist without civilian neighbours that does not befriend anybody raises (the loop comes to the agent itself, and `1 / 0`); it happens exactly if for none of the civilians with smaller ids the number drawn is below the probability, in particular always for agent 0, and always if all agents before it are terrorists.
  * `C241_far_false`: C241 is false: who is within sight or within the sphere of influence makes no difference: the first civilian in the order of the ids for whom the number drawn is below the probability is befriended, however far away; and civilians with greater ids never are, however near.
* **C242** Whole simulations of the terrorism example run for max_steps steps. super().terrorist() and super().leader() raise, so with either scheduler every simulation in which somebody is a leader or terrorist ends with an exception in the next step. The rest holds for persons of the base class TerroristSpreadModel, and for the example's class if nobody is radical in the beginning.
  * `C242_radical_false`: C242 is false: in a simulation of the example, as soon as a person is a leader or a terrorist after `k` steps (for `k = 0`: one of the leaders of the start), the next step raises, with either scheduler, in whatever order the agents are activated: no simulation of more than `k` steps returns.
* **C244** Whole simulations of mesa's wealth model keep the money, move everybody and record every state. Violated: step collects before the agents act, so the state at the end is not recorded; a coin may be given to oneself; with a single cell or without agents the first step raises. mesa's grid, scheduler and collector are a specification, not part of the repository.
  * `C244_degenerate_false`: C244 is violated (other grids and populations): without agents the first step raises (`compute_gini` divides by zero), and with a single cell too, since there is nowhere to go; without cells agents cannot be placed.
  * `C244_last_false`: C244 is violated: the state at the end is not among the data. Two agents on a torus of two cells: after one step the collector has one row, in which everybody has one coin, although one of them has both by then (as `BatchRunner` reports).
  * `C244_self_false`: C244 is violated: an agent with a coin and company may give it to itself, so that nothing is given: two agents meet, and both keep what they have.
* **C246** Whole simulations of the example of drivers and passengers in the scheduler (the property itself is proved; its premises are needed). The statement includes the exception that C246_scheduled_false shows to be needed: a passenger that got home is scheduled once more, because its last state does not return what die gives. C246_safe, C246_home and C246_ends are for square grids; on others passengers may draw unreachable destinations (C157).
  * `C246_scheduled_false`: C246: it is not so that only the agents of the simulation are scheduled: a passenger that has got home calls `die` but does not return its result (examples/cars/cars_sim.py:222), so that it is scheduled once more although it has been removed from the agents. `C246_run` says that this is all.
* **C247** Every simulation with PQueueActivation is a simulation with TimedActivation (the property itself is proved; its premises are needed). The statement includes the difference that C247_endless_false shows: without max_time a simulation in which everybody has died ends with PQueueActivation only.
  * `C247_endless_false`: C247, the difference: without `max_time` a simulation whose agents all die ends with `PQueueActivation` and, whatever the orders are, never with `TimedActivation`.
* **C249** TimedActivation and PQueueActivation have the same runs (the property itself is proved; its premises are needed). The statement includes the difference without shuffling that C249_ordered_false shows.
  * `C249_ordered_false`: C249, without shuffling: with `shuffle=False` (`OrderedTimedActivation`, and `PQueueActivation(shuffle=False)`, whose tie-breakers are the ids) the schedulers do not do the same: agents due at the same time are activated in the order in which they were scheduled by one, and in the order of their ids by the other.
* **C250** No code around the scheduler can tell which one is used (the property itself is proved; its premises are needed). The statement includes the differences that C250_adds_false and C250_empty_false show.
  * `C250_adds_false`: C250, the difference: for code around the scheduler that adds agents, `TimedActivation` and `PQueueActivation` are not the same. After all agents have died the clock of both is infinite; an agent that is added then is activated by `TimedActivation` and not by `PQueueActivation`, whose `add` raises an `IndexError` (C12).
  * `C250_empty_false`: C250, the other difference: a `Lockstepper` around a scheduler without agents. Around `TimedActivation` its step never returns; around `PQueueActivation` it does, for all intervals.
* **C251** All ways to launch a simulation run the same simulation. Violated: a simulation run with another model keeps the name of the first (C251_other_model_false); soil.simulation.run calls every simulation 'test' unless told otherwise (C251_test_name_false); an empty name is replaced by Model.run only (C251_empty_name_false); the pub crawl example is launched with a setting that does not exist and raises TypeError (C251_pubcrawl_false). C251_class_partial and C251_run_partial exclude the names concerned.
  * `C251_empty_name_false`: C251 is violated: `cls.run(name="")` does not run `Simulation(model=cls, name="")`: the name is replaced by that of the class.
  * `C251_test_name_false`: C251 is violated: with `soil.simulation.run` all simulations without a name are called `test`, whatever the model is.
  * `C251_other_model_false`: C251 is violated: a simulation that was given no name has the name of its model, but not when it is run with another model: it keeps the name of the first one, so that the results of one model are written under the name of another.
  * `C251_pubcrawl_false`: C251 is violated in an example: `sim.run(parallel=False)` (examples/pubcrawl/pubcrawl_sim.py:195) raises `TypeError` for every simulation, since there is no such setting.
* **C252** In whole simulations of the basic rabbits the population grows. Violated: births raise (self.model.agents[self.mate] in examples/rabbits/rabbits_basic_sim.py:121). C252_grows_false and C252_returns_false: for all parameters, random numbers, orders and limits a simulation in which nothing was raised has exactly the two rabbits of the beginning. What holds: C252_pair (ages, network and schedule up to the life expectancy), C252_due (in which step the birth happens, and raises), C252_raises (what a raise leaves behind, and when at the earliest), C252_run_partial (the simulation ends at its limit or with that raise), C252_events (every simulation is a series of the events of C129 to C134).
  * `C252_grows_false`: C252 is violated: the population never grows. Whatever the parameters, the random numbers, the order and the number of steps, a simulation in which no step has raised has the two rabbits it began with, dead or alive: births raise (`self.model.agents[self.mate]`, examples/rabbits/rabbits_basic_sim.py:121). After the life expectancy no step raises any more.
  * `C252_returns_false`: C252 is violated, for simulations: no simulation that returns has any rabbits but the two it began with, whatever its limits.
* **C254** Whole simulations of the example with a custom generator count every edge of the network twice. Violated for networks of every size: the constructor of a network agent looks for a free node among nodes drawn with repetition (random.choices), so counters can be put on new nodes although there are free ones; in the extreme only one node gets a counter and no counter finds a neighbour (C254_nodes_false). What holds: exactly when init raises, where the counters are, as many new nodes as nodes left free (C254_init); the simulation returns, every counter runs in every step, and the neighbours counted are exactly twice the edges between occupied nodes (C254_run_partial).
  * `C254_nodes_false`: C254 is violated, in networks of every size: the constructor looks for a free node among nodes drawn with repetition. There are random numbers with which only one of the `n` nodes gets a counter, the others are put on `n - 1` new nodes, and no counter ever finds a neighbour, although the network has edges.
* **C259** The origin of the clock does not matter. Violated: TimedActivation._schedule takes the time 0 for no time (delays into the past), and PQueueActivation.add passes the time as the flag replace (agents added at a time other than 0).
  * `C259_past_false`: **C259** With a delay into the past it is false: the time 0 counts as no time, and the agent is scheduled now instead of in the past; on a clock that is 1 ahead it is scheduled at 1.
  * `C259_pqueue_false`: **C259** It is false when agents are added: on a clock that starts at 1, adding the first agent raises (`heapreplace` of an empty heap), and nobody is ever activated.

## What is missing from partial properties

* **C08** the code violates the claim (argument passed in the wrong position); proved: negation, exact extent, and the case when=None/now
  * `C08_add_when_partial`: C08, what holds: for `when` absent or equal to the current time, the (once added) agent is first activated at that time. Missing: any later `when`.
* **C10** the code violates the claim; proved: negation, and that over any history with any number of exceptions only agents of the instant of an exception are lost
  * `C10_exception_partial`: C10, what holds: after an exception everything that was pending for *other* times is still pending. Missing: the rest of the interrupted instant.
  * `C10_kept_partial`: C10, what holds over whole histories with any number of exceptions: an agent that is pending for time `t` stays pending until it acts at `t`, unless another agent raises at `t`.
* **C12** violated whenever the clock is not 0 (general eviction theorem, IndexError theorem, reachable witness); holds at time 0
  * `C12_add_partial`: C12, what holds: at time 0 (and without `when`, or with `when = 0`) the addition keeps everything that is pending and adds the new agent. Missing: any other time, any other `when`.
* **C15** holds for the default scheduler; violated under Lockstepper (exact shift and witness)
* **C19** violated by TimedActivation without max_time: general divergence theorem and witness; holds when max_time is set, and for PQueueActivation with any bounds
  * `C19_exhausted_partial`: C19, what holds: with a finite or infinite `max_time` an exhausted model is recognised and the run returns at once. Missing: runs without `max_time`.
* **C20** violated: without options the configured limits are replaced by None and every model that does not stop by itself runs for ever; holds for a limit whose option is given or that is not configured
  * `C20_cli_limits_partial`: C20, what holds: a limit is as expected if the option is given or the simulation has no such limit. Missing: simulations with limits of their own.
* **C22** Violated: after an exception in a generator step the next activation is swallowed; an async step never runs again. Proved: a generator step restarts at the second activation after the failure.
  * `C22_restart_partial`: C22, what holds: a generator step starts a new run of its body at the second activation after a failure. Missing: at the first one; coroutines.
* **C23** Violated for state ids of exactly two characters (the string is unpacked as a pair) and for bad delays (state changes before the error). Proved for all other returned values.
  * `C23_documented_partial`: C23, what holds: every documented return value that is not a two-character string has its documented effect. Missing: state ids of two characters (see below).
  * `C23_errors_partial`: C23, errors: a value without documented meaning is an error and leaves the state unchanged, provided it is neither a string (which is tried as a number) nor a pair with a valid state.
* **C24** Violated by returned State objects of other classes; proved over all histories for user code that returns only State objects of its own class.
  * `C24_declared_partial`: C24 for code that only hands out `State` objects of the agent's own class: after every history every FSM agent is in a declared state, and has one if its class has a default. Returned strings, tuples, delays, other objects are not restricted in any way. Missing: foreign `State` objects, see `C24_foreign_state_false`.
* **C25** A foreign State object is accepted without error.
  * `C25_set_state_zero_partial`: C25: at time zero it accepts exactly the declared ids among strings (moving to that state), and `None` (no change). Missing: it also accepts any `State` object.
* **C26** Violated for plain agents killed while scheduled and for FSM agents killed while suspended in a generator state; proved for FSM agents otherwise, over all histories.
  * `C26_fsm_silent_partial`: C26 for FSM agents whose state functions are ordinary functions: in every history, of any user code, no code of the agent runs after its death, however it died (by its own hand, during its own step, killed by another agent in the same instant while already scheduled, or by the environment between steps). Missing: plain and generator agents, and FSM agents suspended inside a generator state.
  * `C26_dead_forever_partial`: C26, generator states allowed: an FSM agent that is dead and not suspended at some moment never executes code again, whatever happens afterwards. Missing: as above.
* **C27** Violated: DeadAgent is raised only by every second call for FSM agents, never for plain ones.
  * `C27_first_call_partial`: C27, what holds: the first call after the death of an FSM agent (not suspended, not having just failed) raises `DeadAgent`, without running any code. Missing: all later calls; plain agents.
* **C28** The initial state is inherited wrongly when a default state is redefined as non-default, and when a grandchild sees an overridden default again.
  * `C28_inherited_default_partial`: C28, initial state, what holds: with one base in which exactly one state is marked default, and that is not redefined, the initial state is inherited. Missing: redefined defaults, several defaults in the hierarchy (both violated, see below).
* **C29** Proved for attributes whose name is not that of a built-in attribute, method or property, and single inheritance; violated for those names (class default ignored) and with multiple inheritance (a base's default overrides the redefinition in another base that derives from it).
  * `C29_precedence_partial`: C29, the values, for every attribute that is neither one of the attributes every agent has nor the name of a method or property.
  * `C29_single_inheritance_partial`: C29, hierarchies: with single inheritance the default of an attribute is the one of the closest class that defines it.
* **C32** Violated for names of class attributes, for deletion of absent names (AttributeError), logger is a key of environments, iteration over an agent yields pairs; proved otherwise for all sequences of operations.
* **C34** Proved for every handler whenever process_messages returns; it returns if the handler neither raises nor touches its own inbox. Violated when a handler sends a message to its own agent: RuntimeError, nothing is cleared.
  * `C34_returns_partial`: C34: it returns if the handler never raises and leaves the agent's own inbox alone. Missing: handlers that send a message to the agent itself, see `C34_self_message_false`.
* **C35** Violated at every crash point: the inbox is only cleared at the end, so messages already handled are handled again. What holds: no message is lost.
  * `C35_nothing_lost_partial`: C35, what holds: no message is lost when a handler raises (as long as handlers do not touch the inbox).
* **C36** Proved when no other agent has the id of the sender; violated for an agent with the same public attributes as the sender (== is equality of dictionaries).
* **C37** Violated: by default the caller always gets an empty list; messages that arrive between the last poll before the deadline and the deadline lead to TimedOut. Exact characterisation for process=False.
  * `C37_unprocessed_partial`: C37 with `process=False`: the wait ends at the first activation that finds a message or is not before the deadline; it returns the whole inbox in the first case and raises `TimedOut` in the second.
* **C38** Violated: the sender is the target, replies that count as false are never returned, expiration is ignored. Proved for replies that count as true.
  * `C38_truthy_partial`: C38, what holds: a reply that counts as true is returned at the first activation (before the deadline) that finds it; `TimedOut` is raised only by an activation that is not before the deadline and when no earlier one found a reply.
  * `C38_reply_stored_partial`: C38, end to end: when the target processes its messages (the handler neither raises nor touches the inbox), the reply stored in the question is what `on_receive` returned for it, whatever else is in the inbox and however late it is.
* **C39** Violated: the fallback node len(G) may hold a living agent (after deaths, or with such node names), which is then displaced. Proved for every history in which this does not happen, and, without condition on the random choices, for graphs that only grow.
  * `C39_linked_partial`: C39, for histories in which nobody is displaced: an agent is put explicitly only on nodes without a living network agent, and where `len(G)` is used as a new node there is no such node with a living agent. Everything else is arbitrary: graph, deaths, failing constructors, random choices. Missing: see `C39_displaced_false`.
  * `C39_growing_partial`: C39, without conditions on random choices: as long as no node is ever removed (agents die with `remove=False`) and the integer nodes are below the size of the graph (as networkx generators make them, and `add_node` is not used to add others), the links hold whatever the additions, deaths and random choices.
* **C40** Violated: only random candidates (drawn with replacement) are looked at, so free nodes are missed; the fallback len(G) is not necessarily fresh. Exact characterisation of the choice proved.
  * `C40_choice_partial`: C40, what holds: the node of an agent without `node_id` is a free node, or it is named `len(G)`; it is a free one if one of the random candidates is free.
  * `C40_full_partial`: C40, what holds: if there is no free node and `len(G)` is not a node yet, a fresh node is made and nothing is displaced.
* **C41** Violated for nodes whose attribute agent is None. Proved for graphs without such nodes and constructors that succeed.
  * `C41_populate_partial`: C41: on a graph whose nodes all have an agent or no attribute "agent", with agents whose constructors succeed, `populate_network` leaves every node with an agent, displaces nobody, adds exactly one agent for each node that had none, schedules them, and does not change the graph. It returns if there was at least one such node. Missing: nodes whose attribute "agent" is `None`, see `C41_reserved_false`, and constructors that raise.
* **C44** Proved for agents that die after their creation, right away and after any further history. Violated for an agent that dies in init: it is scheduled afterwards.
* **C45** Proved for undirected graphs; on directed graphs only one of the two gets a neighbour.
* **C46** Violated for network agents: NetworkAgent.iter_agents never uses unique_id.
  * `C46_plain_partial`: C46 for agents that are not network agents (and for `environment.get_agents`): exactly the agents with that id.
* **C47** Violated: with several criteria on attributes only the last one is applied (late binding of the loop variables); an empty list of ids does not restrict; agents without a state are found by an attribute state_id of the model. Proved for at most one criterion on attributes.
  * `C47_conjunction_partial`: C47 for at most one criterion on attributes (and any number of ids, state ids, classes): the result consists of exactly the agents that satisfy everything, in scheduling order. Missing: several criteria on attributes, see `C47_only_last_false`, an empty list of ids, see `C47_empty_ids_false`, and models with an attribute `state_id` together with agents without a state, see `C47_model_state_false`.
  * `C47_neighbors_partial`: Queries among neighbours (`iter_neighbors`, `get_neighbors`, `count_neighbors`), as far as C47 holds: exactly the agents with the id of a neighbour that satisfy everything else, in scheduling order; none if there are no neighbours.
* **C50** violated: the fixed parameters are a combination of their own and no matrix combination contains them; holds without matrix
  * `C50_fixed_partial`: C50, what holds: with no matrix the fixed parameters are run. Missing: with a matrix.
* **C54** violated with a matrix (n combinations become n*(n+1)) and when the simulation is bound to a name (everything twice); holds for unnamed simulations without matrix
  * `C54_deferred_partial`: C54, what holds: for files that only call `run` on simulations without matrix, the simulations come back unchanged and in order, so exactly the configured runs are performed. Missing: matrices and names.
* **C55** violated: simulations queued before the failure come back with the next file
  * `C55_no_calls_partial`: C55, what holds: a file that calls no `run` before it fails leaves no trace. Missing: files that do.
  * `C55_successful_load_partial`: C55, what holds: a load that does not raise leaves the queue empty.
* **C56** violated: reporters accumulate in the simulation's dictionaries; holds when no combination brings reporters
  * `C56_reporters_partial`: C56, what holds: if no combination brings reporters, every environment gets exactly the reporters of the simulation (up to the two built-in ones, `agent_count` and `time`). Missing: combinations with reporters, where the reporters of all earlier combinations are added.
* **C58** Violated: with agent_type and a callable reporter the wrapper calls itself, so every step with an agent of that type raises RecursionError. Proved for agents of other types and for reporters without a type.
  * `C58_others_partial`: C58, what holds: agents of other types get `None`; and a reporter given without type is applied as it is.
  * `C58_untyped_partial`: 
* **C61** Violated by classes named like a builtin, classes shadowed by an attribute of a known module, classes of __main__, and classes with an attribute deserialize. Proved for all the others.
  * `C61_round_trip_partial`: C61, what holds: the class is found again if it is what its module has under its name, its name is not the name of a builtin, it is not defined in `__main__`, no known module has something else under that name, and it has no attribute `deserialize`. Missing: the other cases, see below.
* **C63** Violated when a file is replaced in the second it was written: the backup name is the modification time in seconds, so an earlier backup is overwritten. Proved for one operation, for one call of any exporter, and for whole histories whose operations are in different seconds.
  * `C63_history_partial`: C63 for whole histories, what holds: if all operations happen in different seconds, then whatever any file contains at any moment is kept until the end, at the beginning of the file or in one of its backups, and no backup ever changes. `stamp` gives different names to different seconds (not so in the hour that is repeated when clocks are set back). Missing: operations in the same second, see below.
* **C65** Violated with items with ids: their weights count in the total but they have no interval. Proved without such items.
  * `C65_thresholds_partial`: C65, what holds: without items with ids and with weights that are not negative and not all 0, the intervals begin at 0, follow each other without gap, end at 1, and their lengths are proportional to the weights. Missing: items with ids, see below.
  * `C65_partition_partial`: C65, what holds, in other words: every number drawn from [0, 1) is in exactly one interval.
* **C66** Violated without n (TypeError), with a smallest weight 0 (ZeroDivisionError), and for weights not given when the numbers do not work out. Proved with positive weights given for all kinds.
  * `C66_count_partial`: C66, what holds: with positive weights given for all kinds, there are exactly `n` agents, each of one of the kinds, and of every kind at least `⌊w / m * ⌊n / (sum of all w / m)⌋⌋`, where `m` is the smallest weight; for every outcome of the random choices and of the shuffling. Missing: no `n`, a weight 0 or `None`, see below.
* **C67** Violated: a dictionary shared by two parameters changes in both; a parameter below a key such as items or values (an attribute name of dictionaries) cannot be set. Proved when the dictionaries on the path are not shared.
  * `C67_set_partial`: C67: if the dictionary that contains the parameter exists and is used only once in the parameters, and no part of its path is the name of an attribute of dictionaries, then afterwards the parameter has the new value and everything else is as before. Missing: attribute names and shared dictionaries, see the theorems below.
* **C69** Violated: neutral agents compare state ids with a State object, content agents lack a return, so discontent never spreads. Proved: content spreads as documented.
  * `C69_content_spreads_partial`: C69, what holds of the spreading of states: neutral and discontent agents become content through their content neighbours with the probability that is proportional to their number.
* **C70** Violated: state_id=1 never matches, so an agent never leaves imitate. Proved: the change from outside to imitate.
  * `C70_innovation_partial`: C70, what holds: an agent outside becomes aware exactly if the draw says so.
* **C71** Violated: filter_agents updates the caller's state dictionary.
  * `C71_state_unchanged_partial`: C71, what holds: without further criteria, or with an empty dictionary, or without one, nothing changes.
* **C72** Violated when a step does not advance schedule.steps (nothing is scheduled any more): the previous records are overwritten. Proved for steps that advance it.
  * `C72_increasing_partial`: C72, what holds: as long as the number increases with every step, there is one entry per step, with the values of the reporters for the agents scheduled at that moment, and entries of earlier steps do not change.
  * `C72_scheduler_partial`: With the default scheduler the number does increase with every step that finds something to do.
* **C73** Violated: sampler_config.pop takes the method out of the caller's configuration.
  * `C73_others_partial`: C73, what holds: nothing else changes, and nothing at all without a method.
* **C74** Violated: gexf files are named after the iteration id, which repeats for every combination of parameters; dummy keeps the last iteration only. Proved for one combination, and for csv and sqlite, which append.
  * `C74_single_partial`: C74, what holds: with one combination of parameters the graph of every iteration is in its file.
  * `C74_csv_partial`: C74 for csv: exporting appends, so rows of an iteration never get lost: after any further calls the file begins with what it had.
  * `C74_sqlite_partial`: C74 for databases: the rows of all iterations are there, in the order of the iterations, after what was there before.
* **C75** Violated: AttributeError and TypeError of the block become RuntimeError (generator yields twice). Proved for all other exceptions.
  * `C75_others_partial`: C75, what holds: other exceptions, and all exceptions in no-dump mode, reach the caller; a block that ends normally raises nothing.
* **C76** Violated: graphdrawing always raises, SQLite alone raises when its directory does not exist. Proved for the others.
  * `C76_others_partial`: C76, what holds: any sequence of calls of the other exporters and of `default` (which writes the YAML file first and thereby creates the directory) ends without exception, if `default` is called first at the start.
* **C77** Violated for distributions: the default state overwrites the state of the kind. Proved for keys not in the default and for fixed agents.
  * `C77_others_partial`: C77, what holds: values that are not in the default state are those of the kind. (And for agents given one by one the state of the item wins.)
  * `C77_fixed_partial`: 
* **C78** Violated: topology of one item leaks to the following items that do not set it. Proved for kinds that set it.
  * `C78_explicit_partial`: C78, what holds: agents of kinds that say it are where they should be.
* **C79** Violated: step calls self.behaviour(), which does not exist. Proved: it works with a behaviour passed by hand.
  * `C79_supplied_partial`: C79, what holds: with a `behaviour` passed by hand, that is what the agent does.
* **C81** Violated: every agent seeds its own generator with the seed of the model, so all agents have equal parameters; content_neutral is ignored. Proved: models without seed, the other settings.
  * `C81_unseeded_partial`: C81, what holds: without a seed, every agent has parameters of its own, made from numbers of its own generator; seven of them are around the settings documented for them. (`content_neutral` is around `discontent_neutral`.)
* **C90** violated by received(expiration=0), which counts as no expiration
  * `C90_received_expiration_partial`: C90 for `received(expiration=e)` with `e ≠ 0`: `e` is an absolute time, and `timeout` plays no role.
* **C91** violated: parameters named like arguments of the intermediate calls make the run fail, and num_processes is swallowed
  * `C91_passed_partial`: C91: with ordinary parameter names the model class is called, with every parameter of the combination and nothing else (the reporters are passed separately).
* **C92** violated: with several processes failures never reach the caller
  * `C92_parallel_same_partial`: C92: when no iteration fails, the number of processes does not matter except for the order.
* **C93** violated: the field num_processes has no effect, and less than 1 never means all processors
  * `C93_exact_partial`: C93: a pool has exactly the number of processes asked for; there is one exactly if more than one is asked for and debugging is off.
* **C94** violated: reporters of a combination stay in the simulation
  * `C94_rerun_partial`: C94, what holds: if no combination brings reporters, the second run builds the same environments in the same order, with the same seeds, parameters and reporters (up to the built-in ones, `agent_count` and `time`). Missing: combinations with reporters.
* **C95** violated when the first collections find no agents and when there are two collections at one time
  * `C95_labels_partial`: C95, what holds: if the step number increases between collections, the times are distinct and there are agents at every collection, the table has exactly the collected rows, each with the time of its collection. Missing: the other cases, see below.
* **C97** violated for dictionaries: the parent of the working directory is used
  * `C97_file_partial`: C97: the simulations of a configuration file that does not say otherwise look for files in the folder of that file.
* **C98** violated by every configuration file, every Python file that fails and every network generator; deferral always ends
  * `C98_python_partial`: C98, what holds for Python files: if loading succeeds, `sys.path` and `sys.modules` are as before, and nothing is deferred any longer. Missing: files that fail, and configuration files, see below.
* **C99** violated: missing configuration files are ignored, a ValueError of a Python file is replaced
  * `C99_reported_partial`: C99: every other exception of the code, and the absence of simulations, reaches the caller, and no file after it is loaded.
* **C100** violated: the method run_simulation does not exist
* **C101** violated for eight settings that the command line always overwrites
  * `C101_kept_partial`: C101, what holds: every other setting that is not given on the command line (nor to `main`) keeps its value.
* **C102** violated: --output is ignored unless main is called with output=None
  * `C102_given_partial`: C102, what holds: `--dry-run`, `--no-dump`, `--debug`, `--level`, `--seed` and `--iterations` take effect, as do the other arguments of `main`. Missing: `--output`, see below.
  * `C102_output_partial`: ... and with `output=None` it has.
* **C103** violated: --csv and --graph repeat exporters that are already there, and the caller's list is changed
  * `C103_exporters_partial`: C103, what holds: the exporters are those of the caller (or the default one) followed by those asked for; each is there once if the options `--csv` and `--graph` do not repeat one of the others.
* **C104** Violated when a key is followed by one of its prefixes ({'a.b': 1, 'a': 2}): the first value disappears. Otherwise every value is kept, and a key below an earlier value is an error.
  * `C104_kept_partial`: C104, for a value that no later key (a prefix of its own key, or the same path) replaces: it is found at its path.
* **C105** agent(...) is always the first of get_agents(...); violated with several criteria on attributes, since get_agents(...) is wrong then.
  * `C105_first_partial`: C105 for queries as in C47 (at most one criterion on attributes): `agent(...)` is the first agent, in scheduling order, that satisfies everything; if there is none it raises `StopIteration`.
* **C106** Violated: no agent can be looked up by its id, no id is in the collection, and iterating raises (values() of a list). The length and the membership of agents are right.
  * `C106_collection_partial`: What holds of C106: the number of agents, the agents themselves as the result of a call without criteria (and of iterating over the environment), and which agents are in it.
* **C107** Violated: a graph object without nodes is replaced by another graph; parameters called seed, dir_path, topology or generator never reach the generator; a generator that raises TypeError is called twice. Proved for the other cases.
  * `C107_graph_partial`: C107 for a graph with at least one node: it is used itself, whatever else is given, and no generator is called.
  * `C107_path_partial`: C107 for paths: a relative path is looked up in the directory of the environment, an absolute one as it is; the reader for its extension reads it, and what it returns is the network. Unknown extensions and failing readers raise.
  * `C107_generator_partial`: C107 for generators: the generator is called with exactly the parameters given, and what it returns is the network. It gets the random numbers of the model (`seed=`), unless that makes it raise `TypeError`; then it is called again without.
  * `C107_extension_partial`: C107 for paths with an extension: `folder/name.ext` is read by the reader for `ext`, whatever dots there are in the folder and in the name.
* **C108** C108_checked holds for every graph and agents told apart by ==. C108_populated_partial leaves out graphs with attributes agent or agent_id (see C41, C110) and init methods that raise or die. With an attribute agent_id the constructor never returns (C110_agent_id_false).
  * `C108_populated_partial`: C108 for a new graph and the parameter `agent_class`: the constructor returns; afterwards there is exactly one agent for each node, all of them scheduled, each on its node; the graph is the same. Missing: graphs with attributes `agent_id`, see `C110_agent_id_false`.
* **C109** Violated when the topology is a graph object: the environments share it, the nodes keep the agents of the first iteration, and the second iteration ends with 'No agents in model'. Holds if the graph is read or generated for each environment.
  * `C109_fresh_partial`: What holds of C109: if each environment reads or generates its graph, what happens in one iteration makes no difference to the environments of the others: each is created as if it were the only one.
* **C110** Violated: get_agents(id) is a list, so the constructor always raises. Agents with an attribute node_id are linked.
  * `C110_node_id_partial`: What holds of C110: without such attributes the constructor is not disturbed; see `C108_populated_partial`. Agents created by other means and placed by their own `node_id` are linked, if nobody else is on the node.
* **C111** Violated by marked methods (as in examples/torvalds_sim.py): the reporter is the name of the member, so the bound method is recorded in every row and never called. Proved for properties, for members that are not marked and for other reporters.
  * `C111_property_partial`: C111 (partial: marked properties; a marked method is not called, see `C111_method_false`): a property marked with `@report`, that `init` and the steps do not define a reporter for, has `n + 1` rows after `n` steps, which are the values of the property initially and after each step, whether or not a reporter of that name was given to the constructor.
* **C112** Violated in two ways: a message with a keyword argument raises when the logger is enabled for it, and a step raises under DEBUG when the last value of a reporter cannot be formatted with a width (None, for example). Proved for messages without keyword arguments and for reporters with formattable values.
  * `C112_code_partial`: C112 (partial: messages without keyword arguments, see `C112_kwargs_false`): code whose calls of `log` have no keyword arguments does the same at every level.
  * `C112_silent_partial`: C112 (partial: as above, or messages below the level of the logger): the calls of `log` make no difference.
  * `C112_steps_partial`: C112 (partial: values that can be formatted, see `C112_step_false`): if after each step all columns end in a number (or in an object that can be formatted with a width), debug logging makes no difference to the steps.
* **C113** Violated when something has to be left out: the message uses an undefined name. Attributes that the constructor takes as keyword arguments are left out as well. Proved for named parameters and without the message.
  * `C113_accepted_partial`: C113 (partial: dictionaries all of whose keys are named parameters, see `C113_ignored_false`): the class is called with exactly the given arguments, in the same order.
  * `C113_quiet_partial`: C113 (partial: without the message): with `warn_extra=False` the class is called with the arguments that are named parameters, and the others are left out.
  * `C113_base_partial`: C113 for `BaseAgent`: `unique_id`, `name` and `init` are passed on to the constructor, with or without the message. Missing: see above.
* **C114** Violated by agents of different environments with the same id and state, which are equal. Proved: equality is sameness of public attributes, an equivalence, compatible with hashes, and agents with different ids are different.
  * `C114_ids_partial`: C114 (partial: agents with different ids; see `C114_twins_false`): agents with different ids are different.
* **C115** Violated by parameters with the name of a read-only property (now, get_agents, network_agents, agent_types): the constructor raises. Proved for all the others.
  * `C115_base_partial`: C115 (partial: parameters whose names are not read-only properties, see `C115_readonly_false`): the constructor of an environment sets every parameter that is not one of its named arguments as an attribute with the given value, and leaves the other attributes alone; it fails exactly when a parameter has the name of a property without setter.
  * `C115_network_partial`: C115 (partial: as above), for network environments: besides, the arguments about the network are recorded, the graph is `G` unless a parameter of that name replaces it, and the class of the agents is `agent_class`.
* **C116** Violated by every level in the body of an agent class: it becomes a default, which is set after the level is looked up. Proved for a level inherited from a class that is not an agent class.
  * `C116_inherited_partial`: C116 (partial: a level inherited from a class that is not an agent class): it is the level of the logger.
* **C118** Violated: the agent acts at time 0, the time of its first activation, which is even. Proved: afterwards it acts at the odd numbers exactly; and added at an odd time it acts at odd times only.
  * `C118_times_partial`: C118 (partial: not the first activation): an `Odds` agent that is added at an integer time `m` runs at `m` and then at every odd number after it, in order; the next of these is what is pending.
  * `C118_odd_partial`: C118 (partial): every activation but the first is at an odd time.
* **C121** Violated: befriending gives patrons an edge to themselves, so they are members of their own group and counted twice when they enter. Proved: nobody is inside without being counted.
  * `C121_counted_partial`: C121 (partial): for any network, nobody is inside without being counted.
* **C122** Violated: self.add_edge(self, other) connects the patron with itself; two different patrons never become neighbors. Proved: a patron only goes on after somebody accepted.
  * `C122_accepted_partial`: C122 (partial: both get an edge, but to themselves): a patron only goes on to look for a pub if some other patron, who is looking for friends outside of pubs, was open enough; then both have an edge.
* **C124** Violated: nobody calls exit, which would raise for every patron; the occupancy of a pub never decreases. Proved: the police gets drunk patrons home.
  * `C124_home_partial`: C124 (partial): the police gets drunk patrons home: after the police and the patron have been activated, the patron is at home.
* **C128** soil_step.py and mesa_basic.py agree for all runs; violated by soil_states.py, where an infection is reported only after the next activation of the infected agent.
  * `C128_step_partial`: C128 (partial: the version without states): with the same schedule and the same random numbers, `soil_step.py` does exactly what mesa's version does.
  * `C128_fate_partial`: C128 (partial: the version with states, what becomes of an infected agent itself): with the same random numbers it gets over the virus, with or without resistance, exactly when it does in the other versions.
* **C130** Basic version: violated whenever the father is alive (TypeError after the first baby), proved if he is dead. Improved version: violated if the father is dead (ValueError), proved if he is alive.
  * `C130_basic_partial`: C130 (partial: the father is dead): after any run, if the father has died, the mother gives birth to all her babies: as many new rabbits as she carried, each with a node and linked to her alone; they are counted as her offspring; she is fertile again.
  * `C130_improved_partial`: C130 (partial: the improved version, the father alive): all babies are born and counted.
  * `C130_due_partial`: C130 (partial: no births before their time): in both versions, babies are only born to mothers whose time has come.
* **C131** Proved for the basic version; violated by the improved version, where conception is never reset.
  * `C131_basic_partial`: C131 (partial: the basic version): no mother has more litters than matings.
  * `C131_mating_partial`: C131 (partial: the basic version): a mating is one between a living fertile male, in its own activation, and a living fertile female, which then expects its babies; an activation leads to at most one.
* **C135** Nodes and absence of loops proved; violated in the number of edges: an edge drawn twice counts once.
  * `C135_graph_partial`: C135 (partial: at most): with two nodes or more, whatever is drawn, the generator returns a graph without loops in which every edge joins two of the nodes `0 … n-1`, no edge is there twice, and there are at most `n_edges` edges (and at most one for each pair of nodes), and at least one unless `n_edges` is 0.
* **C137** Violated: has_been_cured is not defined, so every activation of an infected wise viewer raises AttributeError.
  * `C137_cure_partial`: C137 (partial: `has_been_cured` set, which the code only does from the state `cured`): the next activation of an infected wise viewer cures it.
* **C138** Violated: the defaults end with commas and are tuples (TypeError); proved if the probabilities are given.
  * `C138_given_partial`: C138 (partial: all three probabilities given; the neighbours of the viewer have neighbours, as in every network without directions): only wise viewers raise.
* **C139** Proved if all matching agents are network agents and the own node has a position; otherwise it raises (AttributeError, KeyError). Exact squared distances instead of floating point.
  * `C139_subgraph_partial`: C139 (subgraph): if all scheduled agents that satisfy the criteria are network agents, the nodes of `subgraph` are exactly the nodes of the network on which one of them sits, and its own with `center`.
  * `C139_exact_partial`: C139 (partial: network agents only, the own node in the network and with a position): the search returns exactly the nodes with a position at most `radius` away on which an agent that satisfies the criteria sits, without the own one unless `center` (then the own one whether or not it satisfies the criteria); none twice.
* **C142** Violated if the civilian has neighbours: the mean of no beliefs counts as 0; proved without neighbours.
  * `C142_alone_partial`: C142 (partial: no neighbours at all): the belief stays as it is.
* **C143** Violated always: the mean is computed and thrown away; only whether there is a group matters.
  * `C143_group_partial`: C143 (partial: only whether there is a group): with at least one terrorist or leader among its neighbours the belief of a terrorist is raised to the power, otherwise it stays.
* **C144** Violated always: super().terrorist() calls a state, which raises; proved for runs in which no terrorist or leader acts. update_relationships is not modelled.
  * `C144_network_partial`: C144 (partial): a run of such persons without an exception is the same as that of the base class.
  * `C144_exact_partial`: C144 (partial): exactly which runs of such persons end with an exception: those that do in the base class, and those where a person that is a terrorist or a leader is activated; training areas, havens and civilians are as in the base class.
* **C145** Violated: both caches share _last_step; proved if only one of the functions is used.
  * `C145_degree_partial`: C145 (partial: degrees only): if only `degree` is called, the first call at a time after the last one uses the network of that moment, and further calls at the same time use the same.
* **C149** Violated with a travel time 0 (ZeroDivisionError); proved for positive travel times, in exact arithmetic.
  * `C149_lazy_partial`: C149: a lazy driver goes to a neighbouring intersection with a probability that is inversely proportional to the travel time: number `m` is chosen exactly for the draws in an interval of the length `(1 / tₘ) / Σ (1 / tⱼ)`.
* **C150** Violated: self.max_weight is read before it is set, and grid_graph is no multigraph, so that travel_time raises; proved for at most one intersection, without drivers acting.
  * `C150_square_partial`: C150 (partial: one intersection at most): the environment can be made.
* **C151** Violated with gradual_move: delay is unbound, and the occupation of the edge is already increased; proved without gradual_move.
  * `C151_move_to_partial`: C151 (partial: without `gradual_move`): the driver is moved at once, wherever the position is, and the lists of the intersections stay right.
* **C157** Violated on every grid that is not square: the destination is drawn as (below height, below width), so it may be outside, and its passenger is never delivered; proved for square grids with at least two cells per side.
  * `C157_square_partial`: C157 (square grids): if the grid is a square with at least two cells per side, drivers and passengers start inside and the destinations are what `asking` draws, then no exception escapes, and everybody, the origins and the destinations are always inside.
* **C158** Violated for passengers: their pos is assigned without grid.move_agent, so the grid keeps them where they started; proved for drivers and for passengers that were not picked up.
  * `C158_drivers_partial`: C158 (drivers, and passengers that were not picked up): the grid has every driver in the cell where it is, and every passenger that is still at the origin of its journey.
* **C163** Violated for every state declared with @state (AttributeError, since a state has no __code__); violated for a second command at the same line; proved for plain functions without a breakpoint.
  * `C163_plain_partial`: C163, what is true: for a plain function or method (no state) at whose line there is no breakpoint, the debugger stops afterwards whenever one of the given agents calls it (any agent if none is given), and nothing else changes.
  * `C163_continue_partial`: C163, `continue_state`: for a plain function the debugger stops once, and then everything is as before.
  * `C163_machines_partial`: C163, without a class: if the state is a plain function in all machines that are visible in the module of the frame, the debugger stops in the functions of all these machines, for all agents, and in no other function in which it did not stop before; other classes do not matter. (At any line begins one function at most; there are no breakpoints at these lines.)
* **C164** Violated between two steps (also where --debug stops: the first step is skipped), inside agents (KeyError), and with a model left by an earlier command; proved in the middle of a step if the variable model is the current model.
  * `C164_within_partial`: C164, what is true: if the variable `model` is the model that runs, and it is in the middle of a step, the debugger stops at the next one (and not again): calls of functions without breakpoints, then `step` with a larger number of steps.
* **C165** Proved in methods of models and agents; elsewhere violated, because the commands overwrite the global variables of the module.
* **C166** Violated for declared states and for classes that the frame does not know by name; proved for plain functions otherwise.
  * `C166_self_partial`: C166, what is true: in a method of an agent whose class is visible under its name, for a plain function, the debugger stops when this agent calls it, and when no other agent does.
* **C167** Proved for the default output directory and simulations without a group; otherwise always another file.
  * `C167_default_partial`: C167, for the default output directory and no group: `read_sql(name=…)`, called in the directory in which the simulation was run, opens the file that the exporter has written. Directories and names are normal (no empty parts, no `.` and `..`).
* **C168** The check of the arguments is proved; URLs are never recognised, because os.path.abspath has removed the double slash.
* **C169** Violated without agent reporters, without parameters, and (as to the parameters) if an iteration occurs twice; proved otherwise.
  * `C169_read_back_partial`: C169: when the simulations could be written to a new file, each combination of simulation, parameters and iteration occurs once, all have parameters, at least one iteration has agent reporters, and no user table has the name of one of soil's, `read_sql` gives: the parameters as a table with one row for each iteration and one column for each parameter; and for each iteration, selected by its identifiers, exactly the steps and the values of each reporter in the order in which they were collected, and the same for the agents.
* **C170** Violated for reporters called step, params_id, simulation_id or iteration_id and tables called env; with other names, that are the same in all iterations, everything can be written.
  * `C170_written_partial`: C170: if in all simulations and iterations the reporters, the columns of the tables and the fields of the simulations have the same names, the names are different and not those that soil uses for its indices, and no table has the name of one of soil's, then everything can be written.
* **C171** No record reaches the page, except for simulations called soil (or soil.soil, …): the handler is added to the logger with the name of the simulation, but the simulation logs to soil.<name>.
  * `C171_soil_partial`: C171 (partial): simulations called `soil`, `soil.soil`, … are logged.
* **C172** Violated if something is logged between truncate(0) and seek(0); proved for all other interleavings.
  * `C172_order_partial`: C172 (partial): if nothing is logged between `truncate(0)` and `seek(0)`, then the lines that are sent are lines that were logged, in the same order, and none of them twice: in all executions, with any number of runs, one after the other or at the same time.
* **C173** Lines logged during an update, or after the last one, are lost; proved between two updates if nothing is logged during an update.
  * `C173_complete_partial`: C173 (partial): from the beginning of a run on, as long as no run begins or ends, and if nothing is logged during `update_logging`, then between two updates the lines sent and those in the buffer are all lines that were logged. So nothing is missing when the buffer is empty.
* **C174** The end of a run closes the buffer in use, which is that of the latest run; proved until a run begins or ends.
  * `C174_own_buffer_partial`: C174 (partial): runs one after the other: whatever happened before a run, from its beginning until a run begins or ends, its lines are captured in a buffer of its own that is open; nothing that was logged before is sent.
* **C175** No results are ever sent: the page insists on environment_params, which Simulation does not accept. Configurations are accepted and started.
  * `C175_accepted_partial`: C175 (partial): a configuration with a name and `environment_params` is accepted: the page gets its visualization and its settings, and a run of it begins. What is missing: the run fails.
* **C177** Exceptions in on_message close the connection; only several configurations get an error as an answer.
  * `C177_several_partial`: C177 (partial): after a file with several configurations there is an error, and the connection goes on: the next configuration is accepted.
* **C178** --port and --dump are ignored, --name is shown as a list.
  * `C178_defaults_partial`: C178 (partial): the options `verbose` and the defaults work.
* **C179** steps=True always raises, and so do models without reporters of their own or with one called step; proved otherwise.
  * `C179_drawn_partial`: C179 (partial): otherwise the columns drawn are exactly those of the numeric reporters of the model, except `agent_count`, by time. Missing: `steps`, models without reporters of their own, and exceptions of `agent_df` (C95).
  * `C179_model_df_partial`: C179 (partial): the data frame of the model has the columns of the reporters; its rows are numbered from 0, in the index or, by time, in the column `step`. Missing: columns of different lengths.
* **C180** Proved for one agent reporter; the values of several reporters are counted together.
  * `C180_counts_partial`: C180 (partial): with one agent reporter `f`, if data was collected at distinct times with increasing step numbers, and there were agents each time, then for each collection and each value (not `None`) the number drawn is that of the agents for which `f` gave the value; `None` is not drawn.
* **C182** Without measures (the default) the page raises; proved for a list of measures.
  * `C182_drawn_partial`: C182 (partial): with a list of measures, each of them is drawn, after the space unless it is switched off, and always of the model that the controller has.
* **C183** Lists of numbers become lists of texts, lists of pairs become dictionaries, classes in parameters become texts; the configurations that survive are characterised exactly.
  * `C183_exactly_partial`: C183, what holds: `to_dict` (and with it the YAML file) has the fields of the simulation, unchanged, exactly if there are no classes and the lists, at any depth, contain nothing but texts that are not empty, and dictionaries. Missing: the other configurations, see below.
* **C184** Proved for classes that can be found by module and name; exporters defined in a source that is not a module are lost.
  * `C184_objects_partial`: C184, what holds: if the exporters of a simulation are classes that can be found, or texts that are not empty, then after writing and reading there are as many exporters, they stand for the same objects, in the same order. If the model is a class that can be found, is not defined in `__main__`, and no known module has another object with its name, then the model that is read is the same class. Missing: the other classes, see below.
* **C186** Proved with state as the innermost decorator; if default_state is below state, it is silently ignored.
  * `C186_decorators_partial`: C186, what holds: a function with `state` as the innermost decorator, below any number of `default_state`, is a state of its class under the name that was given, or its own, with the function that was decorated; and if `state` or `default_state` says that it is the default state, then agents of the class start in it (the other states of the class body are not default and have other names). Missing: the other order, see below.
  * `C186_names_partial`: C186, the names of states: `@state` takes the name of the function, `@state("")` too, and `@state("other")` the name that is given.
* **C187** Proved for class bodies whose states are made of functions; default_state(Base.x) marks the state of the base, which changes all classes that have it.
  * `C187_declare_partial`: C187, what holds: if all states of a class body are made of functions, with at most one `state` each, then the new class has the states and the initial state that follow from its bases and its body, and all other classes stay as they are. Missing: other class bodies, see below.
* **C188** What is given for the attributes of every agent (name, ...) or for names of methods is ignored.
  * `C188_given_partial`: C188, what holds for the attributes that are given: a public name that is neither one of the attributes that every agent has nor the name of a method or property of the template has the value that is given, unless the agent is made with another one or the model has a value for it (`defaults` is not given). Missing: the other names, see below.
* **C189** The states are the same; the initial state is if there is at most one default state in the hierarchy.
  * `C189_initial_partial`: C189, what holds for the initial state: if the template has exactly one default state, and starts in it, then so does the customised class; if it has none, both have none. Missing: templates with several default states in their hierarchy, see below.
* **C190** The module of a customised class is abc, so its name stands for the template or for nothing, unless it is assigned to a variable of a known module.
  * `C190_assigned_partial`: C190, what holds: if the customised class is assigned to a variable with the name of the template, in the first known module that has this name, then it is found again. Missing: all other cases, see below.
* **C191** Proved if all activations wait at least some fixed delay and finitely many agents are added; agents that wait less and less, or that keep adding agents, starve others for ever. The theorems about PQueueActivation are about populations added at time 0 (see C12).
  * `C191_no_starvation_partial`: C191, what holds: an agent that is pending for the time `t` is activated at `t` after finitely many steps, if all activations from then on wait at least some `δ > 0`, and at most `K` agents are added. Missing: agents that wait less and less, and agents that keep adding agents, see below.
  * `C191_host_partial`: C191 in terms of the behaviours: if no behaviour fails, all of them wait at least `δ`, and none adds agents, then every pending agent is activated at its time, whatever the history. Missing: see above.
  * `C191_pqueue_partial`: C191 for `PQueueActivation`: with a population added at time 0 and no agents added later (an agent that is added later may evict another one, see `C12_add_evicts_false`), an agent that is pending for the time `t` is activated at `t` after finitely many steps, if all activations from then on wait at least some `δ > 0`. Missing: agents that wait less and less, and agents added later.
  * `C191_pqueue_host_partial`: The same in terms of the behaviours.
* **C192** Proved for criteria that select network agents, and with limit_neighbors without exception; one selected agent without node_id makes subgraph raise.
  * `C192_subgraph_partial`: C192, what holds: if the agents that satisfy the criteria are network agents in the network, the subgraph of an agent in the network has the nodes of these agents and (with `center`) its own, in the order of the network, and the edges between them. Missing: agents that are not on the network, see below.
* **C193** The attributes given are never set: the dictionary becomes the value of an attribute edge_attr_dict.
  * `C193_other_edges_partial`: C193, what holds: `add_edge` with attributes, if it returns, makes the edge as without, and changes no attribute of other edges. Missing: the attributes, see below.
* **C194** The number and the classes are right; free nodes may be missed, and with a topology there is a KeyError after the first agent.
  * `C194_added_partial`: C194, what holds: `add_agents` without `topology` schedules exactly `k` new agents, or one for each node if there is no `k`, after those already there, each of one of the classes; agents that are not network agents do not touch the nodes. Missing: `topology`, and that the agents take the nodes of the network, see below.
* **C195** For constructors that do not pass on node_id (social wealth example) the nodes know their agents, but the agents take themselves to be elsewhere.
  * `C195_nodes_partial`: C195, what holds for classes that do not pass on their node, on a free network whose integer nodes are smaller than its size: `populate_network` returns, there is one agent for each node, in order, and the attribute of the `i`-th node is the `i`-th agent. Missing: the agent's idea of where it is, see below.
* **C196** Holds for code that raises no exception; a block that raises is never reported as finished, and objects that count as false are not told the times.
  * `C196_reported_partial`: C196, what holds: with a clock that does not go back, code that raises no exception is reported completely: every timed block when it starts and when it ends. Missing: code that raises (`C196_exception_false`).
  * `C196_object_partial`: C196: the object given to the timer of a block that ends is told when it started and when it ended (those of the log), and no object that the code does not mention is changed. Missing: objects that count as false (`C196_object_false`).
* **C197** easy is decorated as a context manager but does not yield: the block of a with statement is never executed. A plain call runs the simulation.
  * `C197_plain_partial`: C197, what holds: a plain call `easy(...)` runs the simulations exactly once and ends normally exactly if `main` does and has a result; the exception of `main` reaches the caller, and the debugger is opened exactly if there is one and it was asked for. Missing: the use in a `with` statement.
* **C198** The debugger is made once, with the options of the first call; skip raises TypeError; the traceback given to post_mortem is ignored.
  * `C198_skipped_partial`: C198, what holds: a debugger made with `skip_soil` (and without `skip`) does not stop in the modules of soil, in `contextlib` and in the submodules of mesa, and stops in all others, also in code without a module; without `skip_soil` it stops everywhere. Missing: `skip`, and what is asked for later.
* **C199** What is written is right; the graph loses the positions of its nodes.
  * `C199_written_partial`: C199, what holds: what is written has the same nodes in the same order; a node with a position has it as its place in the picture, and no other attribute of a node is different. Missing: the graph itself (`C199_changed_false`).
* **C200** The content is right for writes that suit the mode; others are accepted although the real file would raise, and copies contain the name of the file before every piece.
  * `C200_content_partial`: C200, what holds: if all that is written suits the mode of the file, a dry run collects exactly what would have been written to the file. Missing: what does not suit it (`C200_mode_false`).
* **C201** Proved for seeds that do not end in NUL.
  * `C201_distinct_partial`: C201, what holds: different seeds give different numbers, if they do not end in a NUL character. Missing: those that do (`C201_nul_false`).
* **C202** Holds for the first run of a connection. A run that begins within half a second after another one is polled twice for ever; of overlapping runs the polling ends with the first that ends.
  * `C202_one_poll_partial`: C202 (partial): in the first run of a connection, as long as it lasts and no other one begins, the log is polled all the time and by one chain of calls: exactly one call of `update_logging` is scheduled or under way. Missing: later runs, see below.
* **C203** The positive theorems hold as long as no delay is lost by rounding, which is so while the time stays below 2**k and delays are at least 2**(k-53). The next activation is at the rounded sum, and at the exact one for multiples of 2**-j below 2**(53-j). Violations: three delays of 0.1 are not 0.3; a delay of 1.0 at 2**53 is lost and time stands still for ever; an integer clock beyond 2**53 goes backwards with a float delay; at(0.9) at 0.3 wakes up later than 0.9.
  * `C203_time_monotone_partial`: C203: as long as no delay is lost by rounding, time never goes backwards. Missing: delays that are lost (`C203_stall_false`, `C203_mixed_false`).
  * `C203_next_activation_partial`: C203: as long as no delay is lost, an agent that was added once and asked for the delay `d` at time `t` acts next at the sum as Python computes it. Missing: delays that are lost.
  * `C203_conservation_partial`: C203: as long as no delay is lost, the queue holds exactly the wake-ups that were asked for. Missing: delays that are lost.
  * `C203_step_runs_due_partial`: C203: as long as no delay is lost, a step activates exactly the agents that are pending at the earliest time, once per wake-up. Missing: delays that are lost.
  * `C203_no_delay_lost_partial`: C203: no delay is lost as long as the time stays below `2 ** k` and delays are at least `2 ** (k - 53)`, `k <= 53`: with delays of at least one unit, up to `2 ** 53`. Exceptions aside, the hypothesis of the theorems above then holds. Missing: later times.
  * `C203_dyadic_exact_partial`: C203: if the delays are multiples of `2 ** -j` (integers, halves, ...) and no sum reaches `2 ** (53 - j)`, then nothing is rounded: an agent that was added once and asked for the delay `d` at time `t` acts next at exactly `t + d`. Missing: other delays, such as 0.1 (`C203_drift_false`).
* **C204** Holds without shuffling if no two agents have the same unique_id, and with shuffling if the generator never gives the same number twice. Violation: entries are (key, agent), so a tie of keys compares the agents; agents cannot be compared, the addition raises TypeError, the agent is not among the agents but in the queue, acts in the next step and makes that step raise too. In any case no entry of the heap is lost (C204_kept).
  * `C204_numbers_partial`: C204 (partial): without shuffling, and with agents that all have numbers of their own, no comparison of entries ever raises: in every history the scheduler does exactly what it does if entries that agree in time and key are in no order. Missing: agents with the same number, see below.
  * `C204_draws_partial`: C204 (partial): with shuffling, the same holds as long as the generator never gives the same number twice: `seen w` are the numbers it has given so far; agents and callers may draw numbers too, but do not turn the generator back. Missing: a generator that repeats a number, see below.
* **C205** Violations: soil.config has no AgentConfig, so every call raises AttributeError. If the classes are assumed to be there, the agents are as asked for (with positive weights and enough room), but nodes that are left over raise NameError (the name assigned does not exist) and agents for the total go to the topology by default although all nodes are taken.
  * `C205_agents_partial`: C205 (partial): if the classes were there: all agents given one by one, in order, with their own class, state and topology; then the agents for the free nodes, all of them in the topology; then the others, so that agents that are not hidden and agents for nodes make up the total. For all random choices. Missing: the classes; nodes that are left over; kinds for the total that are put in the topology. See the other theorems.
* **C206** Violations: with the interval 0.1 three steps run an agent that is due at 0.3; with the interval 1.0 the clock stands still from 2**53 on. It holds for integers and for multiples of powers of two; in general the drift is bounded.
  * `C206_interval_partial`: C206: as long as no delay of an agent is lost by rounding, a `Lockstepper.step` that returns takes its clock to the sum as Python computes it, leaves the wrapped scheduler at a time not before it, has run only activations due before it and has left none of them pending. Missing: delays that are lost (`C203_stall_false`).
  * `C206_integers_partial`: C206: with integers the clock is exact: `n` steps of a new `Lockstepper` take it to exactly `n` intervals later, however late. Missing: floating-point intervals (`C206_early_false`).
  * `C206_dyadic_partial`: C206: if the interval is a multiple of `2 ** -j` (a half, a quarter, ...), and so is the time at the beginning, the clock is exact up to `2 ** (53 - j)`. Missing: other intervals, such as 0.1 (`C206_early_false`).
  * `C206_drift_partial`: C206: in general the clock drifts: below `2 ** k` each step adds an error of at most `2 ** (k - 54)`. Missing: that there is no error (`C206_early_false`).
  * `C206_advances_partial`: C206: the clock advances with every step as long as it is below `2 ** k` and the interval is at least `2 ** (k - 53)`. Missing: later times (`C206_stall_false`).
* **C207** Violations: a loop over iter_agents whose body kills or adds an agent raises RuntimeError and leaves the others out; and it looks at the criteria late, so the body can change who is visited. Loops over get_agents are not affected.
  * `C207_get_partial`: C207, `get_agents`: whatever the body of the loop does — kill agents, add agents, change them — it is run once for each agent that satisfied the criteria when the loop began, up to the limit, and the loop itself raises nothing.
  * `C207_iter_partial`: C207 (partial), `iter_agents`: if the body changes at most whether the agent at hand satisfies the criteria, and nobody dies or is added (or the version of Python allows it), the loop does the same as the loop over `get_agents`. Missing: bodies that kill or add agents, or change others.
* **C209** Violation: conception is never reset, so after one mating a female has a litter again and again, without a father. Everything else holds: every litter is preceded by a mating at least one gestation before.
* **C211** Violation: RuntimeError escapes as soon as an accident kills a rabbit, in versions of Python in which the agents cannot be removed while they are iterated; it holds in the others.
  * `C211_exact_partial`: C211 (partial), if agents may be removed while they are iterated: in every activation of `RandomAccident` with living rabbits one number is drawn for every rabbit in the schedule that is not in the state `dead`, in the order of the schedule, and exactly those whose number is below `prob_death * floor(log10(number of nodes))` die; nothing else happens to any rabbit, and no exception escapes.
* **C212** Violations: add_edge raises ValueError when the father of a litter has died before the birth; RuntimeError in accidents. These are the only exceptions.
  * `C212_only_partial`: C212 (partial): the first exception that escapes comes from an accident that kills a rabbit (in the versions of Python in which agents cannot be removed while they are iterated), or from a birth: the mother is alive, the father died after they mated.
* **C214** Violated: popitem, clear and values raise TypeError because __iter__ gives pairs, update with another agent raises TypeError, and pop/setdefault see the attributes of the class. Proved: refinement for get/set/del/in/len/pop/setdefault/update on names that the class does not have.
  * `C214_dictionary_partial`: C214, what holds: with names that are public and not found on the class, every sequence of reads, assignments, deletions, tests, `len`, `pop`, `setdefault` and `update` (with a dictionary, with pairs or with keyword arguments) does to an agent what it does to the dictionary `dict(agent)`, order included, and returns the same, except that deleting an absent name raises another exception. Missing: names of the class, `popitem`, `clear`, `values`, `update` with an agent.
* **C215** Violated when an exception escapes from process_messages: the inbox is kept and the messages before it are handed out again. Proved for every run without such an exception, and at-least-once, order and expiration for every run.
  * `C215_conserved_partial`: C215, unless an exception escapes from `process_messages`: the messages sent to an agent (told, asked or broadcast) are, in this order, those that it has dealt with, i.e. handed to `on_receive` or passed over because they had expired, and those in its inbox. So every message is dealt with once, in order, and none is lost. Missing: see `C215_twice_false`.
  * `C215_once_partial`: C215, unless an exception escapes from `process_messages`: no message is dealt with twice, neither by the same nor by different agents.
  * `C215_pqueue_conserved_partial`: C215 with `PQueueActivation`, unless an exception escapes from `process_messages`: the messages sent to an agent are, in this order, those that it has dealt with and those in its inbox. Missing: as in `C215_conserved_partial`.
* **C216** Violated: infinity is written as inf, which literal_eval refuses, and the type name is not looked at. Proved: the round trip for all other nested values.
  * `C216_round_trip_partial`: C216 for values without infinities: what `deserialize` makes of the result of `serialize` is the value, of whatever depth, with whatever texts in it. Missing: infinities, see `C216_inf_false`.
  * `C216_injective_partial`: ... so `serialize` never gives the same texts for different values.
* **C217** Violated: every call appends soil.agents to the list of known modules, be it the caller's or the mutable default. Proved: the names are the same after every sequence of calls, and the round trip for classes that can be found by module and name.
  * `C217_round_trip_partial`: C217: what `_deserialize_type` makes of the name is the class, for classes that can be found by their module and name, and whose name is no builtin's and means nothing else in `soil.agents`. `soil.agents.custom`, where it looks, too, is a function and not a module. Missing: the same as in C61.
* **C218** Violated: an answer in the last delay before the deadline is lost because the asker looks only once per delay, and an answer that is false (0, None, empty) is never noticed. Proved: the looks are one delay apart, a reply that is taken is the answer to this question and at most one delay old, and every true answer given more than one delay before the deadline is noticed.
  * `C218_gave_up_partial`: C218, unless an exception escapes from `process_messages`: when the asker gives up, the deadline has passed, and if the target has answered the question with something true, then so late that one delay later the deadline had passed. Missing: answers in the last delay before the deadline (`C218_late_false`) and answers that are false (`C218_falsy_false`).
  * `C218_answered_partial`: C218, unless an exception escapes from `process_messages`: if the target has answered the question with something true, and one delay later was before the deadline and is in the past now, then the asker has gone on with this answer.
* **C219** Violated: a delay that is lost by rounding (1.0 at 2**53) leaves the agent at the head of the queue, and the step never ends. Proved for every execution in which no delay is lost: every step ends and runs exactly the due agents, and the next activation is at the rounded sum. Below 2**k no delay of at least 2**(k-53) is lost, k <= 53.
  * `C219_next_activation_partial`: C219: as long as no delay is lost by rounding, an agent of the population that asked for the delay `d` at time `t` acts next at the sum as Python computes it, it acts first at 0, and never again once it has died. Missing: delays that are lost (`C219_endless_false`); agents added later (C12).
  * `C219_step_partial`: C219: as long as no delay is lost, a step ends, without exception, runs exactly the agents of the population that are due at the earliest time, once per wake-up, and sets the clock to the next one: infinity, and the model is stopped, if there is none. Missing: delays that are lost (`C219_endless_false`).
  * `C219_no_delay_lost_partial`: C219: no delay is lost as long as the time stays below `2 ** k` and delays are at least `2 ** (k - 53)`, `k <= 53`. Exceptions aside, the hypothesis of the theorems above then holds. Missing: later times.
* **C221** Proved if at most one of the classes has a generator or coroutine; a generator that calls the step of another generator always raises, and of two generators called in turn the second call resumes the first.
  * `C221_one_partial`: C221 (partial: as long as at most one of the classes has a generator or coroutine as its step): every step that is called runs the code of its own class, resumed where it was suspended, whatever the steps call in which order: a series of activations has the same replies and the same effects as if each class had a generator of its own.
* **C222** model.interval is read instead of model.default_interval: an environment whose class declares default_interval cannot be made, and the parameter has no effect.
  * `C222_declared_partial`: C222 (partial: if the class has the attribute `interval` as well, with the same value): agents that return `None` act again after the interval that the class of the environment declares.
* **C223** If everybody is resistant before MAX_STEPS, nobody is left in the scheduler, steps are no longer counted and the benchmark loops for ever.
  * `C223_steps_partial`: C223 (partial: if somebody is not resistant before each of the steps): the benchmark stops after exactly the number of steps asked for, as it asserts in the end.
* **C224** Violated: with TimedActivation an agent that asks for NaN, and every agent added while the clock is NaN, acts from then on only while the clock is NaN; a delay of inf is not the end then; a run with max_time never ends if only such agents remain. With PQueueActivation the step itself never ends, or other agents are woken late. Proved for TimedActivation: agents that have nothing to do with NaN are woken exactly when they asked for, and the readings of the clock that are numbers are in order, as long as no exception escapes and no delay is negative.
  * `C224_others_partial`: C224: an agent that was added once, while the clock was a number, and never asks for `nan`: it acts only while the clock is a number, exactly when it has asked for, and what it waits for is exactly its next wake-up – whatever the other agents ask for.
  * `C224_clock_partial`: C224: the readings of the clock that are numbers never go backwards, and neither do the events.
  * `C224_heap_clock_partial`: C224: with the priority queue the clock never is `nan`: a step that ends at the time `now` advances it to a later time, `inf` if nobody is left.
  * `C224_numbers_partial`: C224: as long as nobody asks for `nan`, everything is as for numbers: the state after any history is that of the scheduler of the other claims, and a run with `max_time` that ends ends in the same state.
* **C225** Violated: only seven hexadecimal digits are kept, so among more than 16^7 combinations two share an identifier, whatever the hash function; `parameters` that are also a combination of the matrix are written twice with the same identifiers; for dictionaries as values the order of their items matters. Proved: order of the parameters does not matter; the text before hashing is different for different literal values; without repetitions and without a collision of the digits every iteration has identifiers of its own and is found again by read_sql.
  * `C225_text_partial`: C225: the texts that are hashed are different for different parameters.
  * `C225_told_apart_partial`: C225: if nothing is repeated in the configuration, and the seven digits tell the texts of this run apart, no two iterations of a run are written with the same identifiers.
  * `C225_read_back_partial`: C225, from the configuration to the results that are read: under the hypotheses of `C225_told_apart_partial` and of C169, if all the iterations of a run could be written to a new database, then `read_sql` finds for each combination and iteration the values of the parameters (`cell`: as they are written), and the rows that were collected in this iteration, in order.
* **C226** Violated: in three of the nine pairs of the example the third ratio is negative; no exception is raised, and the share of the second kind is not the one given. Proved when no ratio is negative.
  * `C226_ratios_partial`: C226, if the ratios are not negative: a viewer is dumb, herd or wise exactly if the number drawn for it is in an interval of the length of the ratio.
* **C227** Violated by every simulation whose models have no reporters of agents (the default): read_sql raises. Proved for simulations with parameters, reporters of agents and distinct identifiers; for the agents as long as the step number increases.
  * `C227_history_partial`: C227: if the iterations of a simulation return and could be written to a new database, nothing is repeated in its configuration, the identifiers are different, all combinations have parameters and there are reporters of agents, then `read_sql` gives for each combination and iteration: the parameters; for each reporter of the model its value at the start and after each of the steps `1, …, n`, in order, where `n` is the first state in which the limits of the simulation tell to stop; and for each reporter of agents (as long as the step number increases) its value for each agent of the scheduler in the same states. Missing: the other cases, see C169, C170, C72 and C225.
* **C228** Violated: with --pdb the exception is swallowed; a missing file is only logged; the argument pdb is ignored; SOIL_POSTMORTEM and SOIL_DEBUG stay set for later calls. The rest is proved.
  * `C228_errors_partial`: C228, without `--pdb`: an exception reaches the caller. If it is raised by a simulation, those before it have been run and those after it are not; if it is raised by loading (of any of the simulations), none is run. Missing: with `--pdb`, see below.
  * `C228_independent_partial`: C228: calls that ask for no debugger leave no trace in the process.
* **C229** Seed and iterations reach every environment. Violated by --set for simulations with a matrix: the combinations do not get the values, and one more combination is run instead.
  * `C229_runs_partial`: C229, the seed and the number of iterations: if nothing raises, the results of `soil file` are one list for each simulation of the file, with one environment for each combination (of the parameters with those of `--set`) and each of the iterations asked for, and its seed is made of the seed asked for and the number of the iteration.
  * `C229_set_partial`: C229, the parameters: if the simulation has no matrix, every environment gets the values given with `--set`, and the other parameters of the simulation. Missing: simulations with a matrix.
* **C230** Proved for all programs that do not change the schedule. Violated when an agent is removed with mesa's schedule.remove (it goes on being activated) and when agents are added in a step (the next step activates only them, at the same time).
  * `C230_rounds_partial`: C230 (partial: nobody is added or removed): if the agents always return nothing and add no agents, then for any number of agents, any interval and any user code, with or without shuffling: after `k` steps the clock says `k·iv` and the counter `k`, no step raises, and step `k + 1` activates every agent exactly once, at time `k·iv`; without shuffling, in the order in which they were added.
  * `C230_counts_partial`: C230 (partial, as before): so each agent has been activated exactly `k` times after `k` steps.
  * `C230_mesa_partial`: C230 (partial, as before): soil's default scheduler does with such agents what mesa's schedulers do. There is a run of mesa's scheduler (`BaseScheduler` if there is no shuffling, else `RandomActivation`) with the same agents such that after every number of steps the worlds are the same, and so are the agents, the numbers of steps, and the clocks (mesa counts the intervals).
  * `C230_ordered_partial`: C230 (partial, as before): without shuffling this is a function: the agents run one after the other, in the order in which they were added, in every step.
  * `C230_ends_partial`: C230 (partial, as before): a simulation of such agents with `max_steps` returns after exactly that number of steps; with `max_time`, after the smallest number of steps that takes the clock there.
  * `C230_pqueue_partial`: C230 (partial: nobody is added or removed) for `PQueueActivation`, whatever numbers are drawn for the order: every step activates every agent exactly once, at time `k·iv`, and the world after it is that after the turns, one after the other in some order.
  * `C230_agree_partial`: C230 (partial, as before): without shuffling (`PQueueActivation` orders by `unique_id`, which grows with the agents), it does the same as the default scheduler without shuffling and as mesa's `BaseScheduler`: the worlds are the same after every number of steps.
  * `C230_pqueue_ends_partial`: C230 (partial: nobody is added or removed): with `PQueueActivation`, too, a simulation with `max_steps` returns after exactly that number of steps, and one with `max_time` after the first round at or after that time.
* **C233** Contentment spreads as described; discontent never does (the filter compares a State with the name of a state, and the state content ignores it).
  * `C233_states_partial`: C233, what holds of the life of such agents: after every number of steps the clock is at `k` intervals, nothing is raised, and every agent is neutral, discontent or content: the three numbers add up to the number of agents.
  * `C233_front_partial`: C233 (partial: only contentment spreads). If contentment always spreads to neighbours and nobody loses it, then after `k` steps everybody is content who is at most `k` edges away from somebody who was content at the beginning, whatever the order of the agents in each step.
  * `C233_along_partial`: C233 (partial: only contentment spreads): without spontaneous contentment, whoever is content was content at the beginning or is connected with somebody who was.
  * `C233_pqueue_partial`: C233 with `PQueueActivation` (partial: only contentment spreads): after `k` steps the clock is at `k` intervals, nothing is raised, and all agents are in one of the three states; and if contentment always spreads to neighbours and nobody loses it, then after `k` steps everybody is content who is at most `k` edges away from somebody who was.
* **C234** States and times as described; neighbours have no influence: the simulation is the same on every network (state_id=1 matches nobody).
  * `C234_aware_partial`: C234, what holds: after every number of steps the clock is at `k` intervals, nothing is raised, and every agent is outside or aware; who is aware stays so; and `time_awareness` of an agent that has become aware is the time of the step in which it did.
  * `C234_exact_partial`: C234 (partial: only innovation): without shuffling, agent `r` is aware after `k` steps exactly if one of the numbers drawn in its turns is smaller than the probability of innovation; in step `j` this is number `j·n + r`.
  * `C234_pqueue_partial`: C234 with `PQueueActivation`, what holds: the clock, no exceptions, two states, who is aware stays so, and `time_awareness` is the time of the step in which it began.
* **C235** Holds for all delays except those that lead to the time 0: `when or self.time` takes 0 for missing and the agent is activated at the present time again. Obeying the calendar means that agents that go back can keep the others waiting for ever; the run never ends.
  * `C235_exact_partial`: C235: agents may ask for times in the past. Whatever the default interval: an agent added once follows its own time line (it first runs at the time it was added; after an activation at `t` with the reply `d` its next activation is at exactly `t + d`, earlier than `t` if `d` is negative), and what is pending for it is exactly its next wake-up. What is missing: the requests for the time 0 (`C235_zero_false`).
  * `C235_earliest_partial`: C235: the clock always shows the earliest pending wake-up, even if that is before what it showed; and everything that has been asked for is pending. What is missing: the requests for the time 0.
* **C236** The clock and the wake-ups are as described; an agent that always asks for the past makes a single step endless, and wake-ups in the past are late (unlike with TimedActivation, C235).
* **C237** Holds from the first step on for grids with more than one cell. The model replaces soil's collector after the constructor has collected, so the row of the start is lost, and without a column `time` model_df() and agent_df() raise. The class of agents does not pass on its node, so agents take themselves to be elsewhere; if the first one does, it never gives anything to the others.
  * `C237_run_partial`: C237, what holds on grids with more than one cell, for any number of agents and any random numbers: the environment can be built; a simulation with `max_steps = k` returns after `k` steps, at time `k · interval`; all agents are still there and on the grid, they have `n` coins in all, and nobody is in debt; and for each of the `k` steps the Gini coefficient (between 0 and `1 - 1/n`) and the wealth of every agent have been recorded. Missing: the start (see `C237_frames_false`), the data frames (the same) and the links of the network (see `C237_sink_false`).
  * `C237_links_partial`: C237, the network: whatever nodes the agents take themselves to be on, everybody's friends are linked with them in the star. Missing: not all who are linked are friends, see below.
* **C238** A delay of 0 is a whole default interval for the scheduler: a driver rests for an interval at every intersection, and a street that takes no time takes an interval. Without drivers and with lockstep=True the first step never ends. The rest holds for all cities in which one can drive; that the steps with lockstep end, for those with a shortest travel time.
  * `C238_journeys_partial`: C238, what holds: in a city in which one can drive, whatever chance decides, no step ever raises, and at any time every driver is on a journey along the streets from where it started, on which everything has been done that was due before now. Missing: that it goes on at once when it has arrived, see below.
  * `C238_lockstep_partial`: C238 with `lockstep=True`, the default: in a finite city with at least one driver every step of the environment comes to its end, and after `m` of them the clock is at `m`, everything up to there and nothing else has happened, and every driver is on its journey. Missing: as above.
* **C239** The last patron who looks for friends never finds any, since those who have found some do not look any more; and each pub only ever admits half as many patrons as it has places, since everybody is counted twice and nobody leaves. The times, and that nobody waits while there is room, hold; for patrons that refuse nobody the outcome is determined.
* **C240** A wise viewer that hears the news raises at its next activation (has_been_cured is not defined), so with one wise viewer with a TV set and probability 1 no simulation gets beyond the second step; and the example never sets has_tv, so in its own simulations nothing ever happens. Without wise viewers, and with the probabilities given, the run, the speed and (dumb viewers) the arrival of the news hold for both schedulers.
  * `C240_runs_partial`: C240 (partial: probabilities given, nobody wise): nothing is raised, with either scheduler; the clock is at `k` intervals after `k` steps; and a simulation with `max_steps` returns after exactly that number of steps.
  * `C240_reach_partial`: C240 (partial: everybody dumb): if the probabilities are 1, everybody who is at most `k` edges away from a TV set is infected after `2k + 1` steps, and stays so: with either scheduler, with or without shuffling.
  * `C240_speed_partial`: C240 (partial: nobody wise): whatever the probabilities and the random numbers are, the news travels at most one edge per step: who is infected after `k` steps is fewer than `k` edges away from a TV set.
* **C241** get_agents ignores the ids it is given, so agents at any distance are considered, in the order of their ids, and the loop either links with an agent of smaller id or divides by zero when it reaches the agent itself. What holds: nothing is done with a civilian neighbour; a new link is with a civilian who was no neighbour, drawn with the computed probability, and only this edge is added.
  * `C241_link_partial`: C241 (partial: what is true of it): a terrorist with a civilian among its neighbours looks for nobody; a new relationship is always with a civilian that is not a neighbour, for whom the number drawn is below the probability; exactly this edge is added, in both directions.
* **C242** super().terrorist() and super().leader() raise, so with either scheduler every simulation in which somebody is a leader or terrorist ends with an exception in the next step. The rest holds for persons of the base class TerroristSpreadModel, and for the example's class if nobody is radical in the beginning.
  * `C242_spread_partial`: C242 (partial: persons of the class `TerroristSpreadModel`): nothing is raised, with either scheduler; after `k` steps the clock is at `k` intervals and every agent has had `k` turns; a simulation with `max_steps` returns after exactly that number of steps.
  * `C242_peace_partial`: C242 (partial: no leaders in the beginning): if all persons of the example are civilians with beliefs of at most `M`, less than 0.8, then the simulation returns after `max_steps` steps, with either scheduler, and they still are.
* **C244** Violated: step collects before the agents act, so the state at the end is not recorded; a coin may be given to oneself; with a single cell or without agents the first step raises. mesa's grid, scheduler and collector are a specification, not part of the repository.
  * `C244_run_partial`: C244, what holds on a torus with more than one cell, for any number of agents and any random numbers: the model can be built, and simulations of any length end without an exception; after `k` steps (`x k`) the clock is at `k`, the agents have `n` coins in all, nobody is in debt, all are on the grid; the `k` rows of the collector are the states before each step, with their Gini coefficients; and in each step every agent moves once, to a cell that touches its own, gives at most one coin, and gets at most `n - 1`. Missing: the state at the end is not recorded (`C244_last_false`), and a coin may be given to oneself (`C244_self_false`).
* **C251** Violated: a simulation run with another model keeps the name of the first (C251_other_model_false); soil.simulation.run calls every simulation 'test' unless told otherwise (C251_test_name_false); an empty name is replaced by Model.run only (C251_empty_name_false); the pub crawl example is launched with a setting that does not exist and raises TypeError (C251_pubcrawl_false). C251_class_partial and C251_run_partial exclude the names concerned.
  * `C251_class_partial`: C251: `cls.run(**kwargs)` runs the simulation `Simulation(model=cls, **kwargs)`, whatever the arguments are, and raises if that raises. (Unless the name given is false and not `None`: `C251_empty_name_false`.)
  * `C251_run_partial`: C251: `soil.simulation.run(env, name=…, **kwargs)` runs the simulation `Simulation(model=env, name=…, **kwargs)`, whatever the arguments are.
* **C252** Violated: births raise (self.model.agents[self.mate] in examples/rabbits/rabbits_basic_sim.py:121). C252_grows_false and C252_returns_false: for all parameters, random numbers, orders and limits a simulation in which nothing was raised has exactly the two rabbits of the beginning. What holds: C252_pair (ages, network and schedule up to the life expectancy), C252_due (in which step the birth happens, and raises), C252_raises (what a raise leaves behind, and when at the earliest), C252_run_partial (the simulation ends at its limit or with that raise), C252_events (every simulation is a series of the events of C129 to C134).
  * `C252_run_partial`: C252 (partial: no litter is ever complete): a simulation with a time limit up to the life expectancy ends; either it reaches the limit, with the two rabbits of the beginning, or it raises with the first baby, not before `maturity + gestation + 2`.
* **C254** Violated for networks of every size: the constructor of a network agent looks for a free node among nodes drawn with repetition (random.choices), so counters can be put on new nodes although there are free ones; in the extreme only one node gets a counter and no counter finds a neighbour (C254_nodes_false). What holds: exactly when init raises, where the counters are, as many new nodes as nodes left free (C254_init); the simulation returns, every counter runs in every step, and the neighbours counted are exactly twice the edges between occupied nodes (C254_run_partial).
  * `C254_run_partial`: C254, what holds (missing: that every node has a counter, see below): whatever is drawn, the simulation returns after exactly `max_steps` steps, and after `k` steps each of the `n` counters has run `k` times; from the first step on it has found `n` agents and the agents on the nodes next to its own, and together they have counted every edge between two occupied nodes twice and no other edge, so at most `2 * n_edges`.
  * `C254_full_partial`: C254, when it holds: every node of the generator has a counter if and only if no node was added to the network; and then the counters together count every edge twice.
* **C259** Violated: TimedActivation._schedule takes the time 0 for no time (delays into the past), and PQueueActivation.add passes the time as the flag replace (agents added at a time other than 0).
  * `C259_timed_partial`: **C259** If no agent asks to be activated in the past and the interval is not negative, every history of a `TimedActivation` whose clock starts at `T` is that of one whose clock starts at 0, `T` later: the same activations in the same order, and the same world. What is missing for delays is `C259_past_false`, for the priority queue `C259_pqueue_false`.
  * `C259_simulation_partial`: **C259** Simulations, with `max_time` on the other clock, end in the same way after the same number of steps.
  * `C259_pqueue_partial`: **C259** With the priority queue it holds for agents that add no agents, from every state, and with every delay (there the time 0 is a time).
  * `C259_psimulation_partial`: **C259** Simulations with the priority queue whose agents add no agents, too.

## Theorems and their axioms

`p` = `propext`, `q` = `Quot.sound`, `c` = `Classical.choice`, `-` = none.

| property | theorem | axioms |
|---|---|---|
| C01 | `C01_time_monotone` | c q p |
| C01 | `C01_time_monotone_raising` | c q p |
| C01 | `C01_negative_delay_false` | c q p |
| C02 | `C02_exact_wakeups` | c q p |
| C02 | `C02_next_activation` | c q p |
| C02 | `C02_first_activation` | c q p |
| C02 | `C02_only_when_asked` | c q p |
| C03 | `C03_conservation` | c q p |
| C03 | `C03_no_spurious_activation` | c q p |
| C04 | `C04_step_runs_due` | c q p |
| C05 | `C05_ordered_fifo` | c q p |
| C05 | `C05_deterministic` | c q p |
| C06 | `C06_no_double_activation` | c q p |
| C07 | `C07_exhausted_quiescent` | c q p |
| C08 | `C08_add_when_partial` | c q p |
| C08 | `C08_add_when_false` | c q p |
| C08 | `C08_when_ignored` | q p |
| C09 | `C09_added_midstep_runs_next` | c q p |
| C09 | `C09_added_between_steps` | c q p |
| C10 | `C10_exception_partial` | c q p |
| C10 | `C10_kept_partial` | c q p |
| C10 | `C10_exception_loses_others_false` | c q p |
| C11 | `C11_pqueue_exact_wakeups` | c q p |
| C11 | `C11_pqueue_step` | c q p |
| C12 | `C12_add_evicts_false` | c q p |
| C12 | `C12_witness_false` | c q p |
| C12 | `C12_add_raises_false` | q p |
| C12 | `C12_add_partial` | q p |
| C13 | `C13_same_timeline` | c q p |
| C14 | `C14_lockstep_interval` | c q p |
| C14 | `C14_lockstep_clock` | c q p |
| C14 | `C14_lockstep_hangs_when_empty` | c q p |
| C15 | `C15_at_exact` | c q p |
| C15 | `C15_at_lockstep` | c q p |
| C15 | `C15_at_lockstep_false` | c q p |
| C16 | `C16_max_time_open` | c q p |
| C17 | `C17_max_steps_exact` | c q p |
| C17 | `C17_steps_counted` | c q p |
| C17 | `C17_pqueue_counted` | c q p |
| C17 | `C17_pqueue_max_steps` | c q p |
| C17 | `C17_simulation_max_steps` | c q p |
| C18 | `C18_terminates` | c q p |
| C18 | `C18_terminates_host` | c q p |
| C18 | `C18_terminates_adds` | c q p |
| C19 | `C19_exhausted_diverges_false` | c q p |
| C19 | `C19_witness_false` | c q p |
| C19 | `C19_exhausted_partial` | c q p |
| C19 | `C19_pqueue_stops` | c q p |
| C20 | `C20_cli_drops_limits_false` | c q p |
| C20 | `C20_witness_false` | c q p |
| C20 | `C20_cli_limits_partial` | p |
| C21 | `C21_generator_resume` | q p |
| C22 | `C22_swallowed_activation_false` | p |
| C22 | `C22_coroutine_stuck_false` | q p |
| C22 | `C22_restart_partial` | p |
| C23 | `C23_documented_partial` | c q p |
| C23 | `C23_two_char_id_false` | c q p |
| C23 | `C23_witness_false` | c q p |
| C23 | `C23_two_char_id_moves_false` | c q p |
| C23 | `C23_errors_partial` | c q p |
| C23 | `C23_bad_delay_false` | c q p |
| C24 | `C24_declared_partial` | c q p |
| C24 | `C24_foreign_state_false` | c q p |
| C25 | `C25_set_state_late` | q p |
| C25 | `C25_set_state_zero_partial` | q p |
| C25 | `C25_foreign_state_false` | q p |
| C26 | `C26_fsm_silent_partial` | c q p |
| C26 | `C26_dead_forever_partial` | c q p |
| C26 | `C26_plain_killed_false` | c q p |
| C26 | `C26_suspended_false` | c q p |
| C27 | `C27_every_second_false` | c q p |
| C27 | `C27_plain_false` | c q p |
| C27 | `C27_first_call_partial` | c q p |
| C28 | `C28_states_inherited` | q p |
| C28 | `C28_redefinition` | q p |
| C28 | `C28_last_base` | q p |
| C28 | `C28_own_default` | q p |
| C28 | `C28_inherited_default_partial` | q p |
| C28 | `C28_redefined_default_false` | q p |
| C28 | `C28_grandchild_false` | q p |
| C29 | `C29_precedence_partial` | q p |
| C29 | `C29_constructs` | q p |
| C29 | `C29_single_inheritance_partial` | q p |
| C29 | `C29_method_name_false` | q p |
| C29 | `C29_builtin_name_false` | q p |
| C29 | `C29_diamond_false` | q p |
| C29 | `C29_readonly` | p |
| C30 | `C30_disjoint` | c q p |
| C30 | `C30_isolation` | c q p |
| C30 | `C30_fresh_values` | c q p |
| C31 | `C31_auto_ids_distinct` | c q p |
| C31 | `C31_auto_ids_from_zero` | c q p |
| C31 | `C31_explicit_id_collides` | c q p |
| C32 | `C32_dictionary` | q p |
| C32 | `C32_agent_keys` | c q p |
| C32 | `C32_agent_get` | q p |
| C32 | `C32_env_get` | q p |
| C32 | `C32_class_attribute_false` | q p |
| C32 | `C32_delete_absent_false` | p |
| C32 | `C32_env_keys_false` | c q p |
| C32 | `C32_iteration_false` | c q p |
| C33 | `C33_prob` | c q p |
| C34 | `C34_returned` | p |
| C34 | `C34_in_order` | q p |
| C34 | `C34_returns_partial` | q p |
| C34 | `C34_self_message_false` | p |
| C35 | `C35_reprocessed_false` | q p |
| C35 | `C35_nothing_lost_partial` | p |
| C36 | `C36_broadcast` | c q p |
| C36 | `C36_ttl` | c q p |
| C36 | `C36_equal_agents_false` | c q p |
| C37 | `C37_empty_result_false` | p |
| C37 | `C37_unprocessed_partial` | p |
| C37 | `C37_late_poll_false` | c q p |
| C38 | `C38_sender_false` | p |
| C38 | `C38_falsy_reply_false` | p |
| C38 | `C38_waits_forever_false` | c q p |
| C38 | `C38_expiration_ignored_false` | c q p |
| C38 | `C38_truthy_partial` | p |
| C38 | `C38_reply_stored_partial` | q p |
| C39 | `C39_linked_partial` | c q p |
| C39 | `C39_growing_partial` | c q p |
| C39 | `C39_no_sharing` | p |
| C39 | `C39_displaced_false` | q p |
| C40 | `C40_choice_partial` | q p |
| C40 | `C40_full_partial` | q p |
| C40 | `C40_missed_false` | q p |
| C40 | `C40_add_node` | q p |
| C41 | `C41_populate_partial` | c q p |
| C41 | `C41_reserved_false` | c q p |
| C42 | `C42_find_unassigned` | q p |
| C42 | `C42_add_node` | q p |
| C43 | `C43_neighbors` | q p |
| C43 | `C43_symmetric` | q p |
| C43 | `C43_count` | c q p |
| C43 | `C43_ids_unique` | c q p |
| C44 | `C44_gone` | c q p |
| C44 | `C44_returns` | p |
| C44 | `C44_die_in_init_false` | q p |
| C45 | `C45_add_edge` | c q p |
| C45 | `C45_raises` | p |
| C45 | `C45_neighbors` | c q p |
| C45 | `C45_directed_false` | p |
| C46 | `C46_plain_partial` | q p |
| C46 | `C46_network_false` | q p |
| C46 | `C46_network_ids_false` | q p |
| C47 | `C47_conjunction_partial` | c q p |
| C47 | `C47_nothing_missing` | c q p |
| C47 | `C47_only_last_false` | q p |
| C47 | `C47_empty_ids_false` | q p |
| C47 | `C47_model_state_false` | q p |
| C47 | `C47_neighbors_partial` | c q p |
| C48 | `C48_limit` | q p |
| C49 | `C49_matrix_product` | c q p |
| C49 | `C49_empty_axis` | c q p |
| C50 | `C50_fixed_false` | p |
| C50 | `C50_missing_false` | q p |
| C50 | `C50_witness_false` | p |
| C50 | `C50_fixed_partial` | q p |
| C51 | `C51_seeds_distinct` | c q p |
| C51 | `C51_run_seeds` | q p |
| C52 | `C52_results` | q p |
| C52 | `C52_results_count` | q p |
| C53 | `C53_exporter_protocol` | c q p |
| C53 | `C53_exception` | c q p |
| C54 | `C54_deferred_exact` | q p |
| C54 | `C54_count_false` | c q p |
| C54 | `C54_bound_twice_false` | p |
| C54 | `C54_deferred_partial` | p |
| C55 | `C55_broken_file_false` | p |
| C55 | `C55_witness_false` | - |
| C55 | `C55_no_calls_partial` | p |
| C55 | `C55_successful_load_partial` | p |
| C56 | `C56_reporters_leak_false` | p |
| C56 | `C56_reporters_partial` | q p |
| C57 | `C57_rows` | q p |
| C57 | `C57_builtin` | c q p |
| C57 | `C57_time_column` | c q p |
| C57 | `C57_failed_step` | q p |
| C58 | `C58_recursion_false` | p |
| C58 | `C58_step_fails_false` | q p |
| C58 | `C58_others_partial` | p |
| C58 | `C58_untyped_partial` | q p |
| C59 | `C59_round_trip` | c q p |
| C59 | `C59_conditions_needed` | - |
| C60 | `C60_restored` | c q p |
| C60 | `C60_available` | c q p |
| C60 | `C60_same_file_false` | c q p |
| C60 | `C60_unnested_false` | c q p |
| C61 | `C61_round_trip_partial` | c q p |
| C61 | `C61_builtin_false` | c q p |
| C61 | `C61_shadowed_false` | c q p |
| C61 | `C61_main_false` | c q p |
| C61 | `C61_deserialize_false` | c q p |
| C62 | `C62_count` | q p |
| C62 | `C62_values` | c q p |
| C62 | `C62_expand` | c q p |
| C63 | `C63_previous_kept` | c q p |
| C63 | `C63_history_partial` | c q p |
| C63 | `C63_same_second_false` | c q p |
| C63 | `C63_exporters` | c q p |
| C63 | `C63_exporter_call` | c q p |
| C64 | `C64_no_files` | c q p |
| C65 | `C65_thresholds_partial` | c q p |
| C65 | `C65_partition_partial` | c q p |
| C65 | `C65_ids_false` | c q p |
| C66 | `C66_count_partial` | c q p |
| C66 | `C66_no_total_false` | c q p |
| C66 | `C66_zero_weight_false` | c q p |
| C66 | `C66_no_weight_false` | c q p |
| C67 | `C67_set_partial` | c q p |
| C67 | `C67_shared_false` | q p |
| C67 | `C67_attribute_false` | q p |
| C67 | `C67_split` | q p |
| C67 | `C67_all_options` | q p |
| C68 | `C68_add_agents` | c q p |
| C68 | `C68_succeeds` | c q p |
| C68 | `C68_choice_interval` | c q p |
| C69 | `C69_neutral_false` | c q p |
| C69 | `C69_content_false` | c q p |
| C69 | `C69_never_false` | c q p |
| C69 | `C69_content_spreads_partial` | c q p |
| C69 | `C69_begin_false` | c q p |
| C69 | `C69_states` | c q p |
| C70 | `C70_never_false` | c q p |
| C70 | `C70_innovation_partial` | c q p |
| C70 | `C70_begin_false` | c q p |
| C71 | `C71_state_polluted_false` | q p |
| C71 | `C71_state_unchanged_partial` | p |
| C72 | `C72_overwritten_false` | q p |
| C72 | `C72_exhausted_false` | c q p |
| C72 | `C72_increasing_partial` | c q p |
| C72 | `C72_scheduler_partial` | c q p |
| C73 | `C73_method_false` | q p |
| C73 | `C73_others_partial` | q p |
| C74 | `C74_gexf_overwritten_false` | c q p |
| C74 | `C74_dummy_false` | c q p |
| C74 | `C74_single_partial` | c q p |
| C74 | `C74_csv_partial` | c q p |
| C74 | `C74_sqlite_partial` | c q p |
| C75 | `C75_replaced_false` | p |
| C75 | `C75_others_partial` | p |
| C76 | `C76_graphdrawing_false` | c q p |
| C76 | `C76_sqlite_false` | c q p |
| C76 | `C76_others_partial` | c q p |
| C77 | `C77_default_wins_false` | q p |
| C77 | `C77_others_partial` | q p |
| C77 | `C77_fixed_partial` | q p |
| C78 | `C78_leak_false` | c q p |
| C78 | `C78_explicit_partial` | q p |
| C79 | `C79_no_step_false` | q p |
| C79 | `C79_supplied_partial` | q p |
| C80 | `C80_ticker` | c q p |
| C80 | `C80_counter` | c q p |
| C80 | `C80_aggregated` | c q p |
| C81 | `C81_equal_false` | c q p |
| C81 | `C81_content_neutral_false` | c q p |
| C81 | `C81_unseeded_partial` | c q p |
| C82 | `C82_agents_were_added` | c q p |
| C82 | `C82_added_agents_stay` | c q p |
| C82 | `C82_removed_agents_go` | c q p |
| C83 | `C83_stop_ends_run` | c q p |
| C83 | `C83_without_limits` | q p |
| C83 | `C83_called` | c q p |
| C84 | `C84_plain_step` | c q p |
| C85 | `C85_initial_state` | p |
| C86 | `C86_spawn` | c q p |
| C86 | `C86_die` | c q p |
| C87 | `C87_head_is_least` | c q p |
| C87 | `C87_contents` | c q p |
| C88 | `C88_ordered_by_id` | c q p |
| C89 | `C89_added_exactly` | c q p |
| C89 | `C89_history` | c q p |
| C89 | `C89_explicit_id` | p |
| C90 | `C90_received_timeout` | c q p |
| C90 | `C90_received_default_timeout` | c q p |
| C90 | `C90_ask_timeout` | c q p |
| C90 | `C90_received_expiration_partial` | c q p |
| C90 | `C90_zero_expiration_false` | c q p |
| C91 | `C91_passed_partial` | c q p |
| C91 | `C91_taken_false` | c q p |
| C91 | `C91_num_processes_false` | c q p |
| C91 | `C91_agrees` | q p |
| C92 | `C92_sequential` | q p |
| C92 | `C92_parallel_same_partial` | q p |
| C92 | `C92_failures_hidden_false` | q p |
| C93 | `C93_all_processors_false` | q p |
| C93 | `C93_exact_partial` | q p |
| C93 | `C93_field_ignored_false` | p |
| C94 | `C94_rerun_false` | c q p |
| C94 | `C94_witness_false` | p |
| C94 | `C94_rerun_partial` | q p |
| C95 | `C95_labels_partial` | c q p |
| C95 | `C95_shift_false` | c q p |
| C95 | `C95_same_time_false` | q p |
| C95 | `C95_spawn_false` | c q p |
| C96 | `C96_python` | c q p |
| C96 | `C96_config` | q p |
| C96 | `C96_files` | c q p |
| C96 | `C96_files_error` | c q p |
| C97 | `C97_file_partial` | q p |
| C97 | `C97_dict_false` | q p |
| C98 | `C98_not_deferred` | c q p |
| C98 | `C98_python_partial` | c q p |
| C98 | `C98_config_false` | c q p |
| C98 | `C98_raising_false` | c q p |
| C98 | `C98_nothing_false` | c q p |
| C98 | `C98_generator_false` | p |
| C99 | `C99_missing_false` | c q p |
| C99 | `C99_value_error_false` | c q p |
| C99 | `C99_reported_partial` | c q p |
| C99 | `C99_exactly_one` | p |
| C99 | `C99_unknown_fields` | c q p |
| C100 | `C100_run_from_file_false` | q p |
| C101 | `C101_kept_partial` | c q p |
| C101 | `C101_overwritten_false` | c q p |
| C101 | `C101_witness_false` | p |
| C102 | `C102_given_partial` | c q p |
| C102 | `C102_output_false` | p |
| C102 | `C102_output_partial` | c q p |
| C103 | `C103_exporters_partial` | c q p |
| C103 | `C103_twice_false` | c q p |
| C103 | `C103_caller_list_false` | p |
| C104 | `C104_kept_partial` | q p |
| C104 | `C104_conflict` | q p |
| C104 | `C104_lost_false` | q p |
| C105 | `C105_first_partial` | c q p |
| C105 | `C105_consistent` | q p |
| C105 | `C105_wrong_agent_false` | q p |
| C106 | `C106_mapping_false` | q p |
| C106 | `C106_collection_partial` | q p |
| C107 | `C107_graph_partial` | p |
| C107 | `C107_path_partial` | c q p |
| C107 | `C107_generator_partial` | q p |
| C107 | `C107_no_source` | p |
| C107 | `C107_empty_graph_false` | p |
| C107 | `C107_seed_false` | p |
| C107 | `C107_reserved_false` | p |
| C107 | `C107_extension_partial` | c q p |
| C108 | `C108_checked` | c q p |
| C108 | `C108_populated_partial` | c q p |
| C108 | `C110_agent_id_false` | c q p |
| C109 | `C109_shared_graph_false` | c q p |
| C109 | `C109_deaths_false` | c q p |
| C109 | `C109_fresh_partial` | c q p |
| C110 | `C110_agent_id_false` | c q p |
| C110 | `C110_node_id_partial` | c q p |
| C111 | `C111_property_partial` | c q p |
| C111 | `C111_method_false` | c q p |
| C111 | `C111_others` | c q p |
| C111 | `C111_unmarked` | q p |
| C111 | `C111_raising` | c q p |
| C111 | `C111_constructed` | c q p |
| C111 | `C111_hidden` | c q p |
| C112 | `C112_code_partial` | c q p |
| C112 | `C112_silent_partial` | c q p |
| C112 | `C112_kwargs_false` | c q p |
| C112 | `C112_steps_partial` | q p |
| C112 | `C112_quiet` | p |
| C112 | `C112_step_false` | q p |
| C113 | `C113_accepted_partial` | c q p |
| C113 | `C113_quiet_partial` | q p |
| C113 | `C113_ignored_false` | c q p |
| C113 | `C113_kwargs_false` | c q p |
| C113 | `C113_base_partial` | q p |
| C114 | `C114_equal_iff` | c q p |
| C114 | `C114_equivalence` | c q p |
| C114 | `C114_hash` | c q p |
| C114 | `C114_ids_partial` | c q p |
| C114 | `C114_twins_false` | c q p |
| C115 | `C115_base_partial` | c q p |
| C115 | `C115_network_partial` | c q p |
| C115 | `C115_readonly_false` | c q p |
| C116 | `C116_body_false` | q p |
| C116 | `C116_inherited_partial` | q p |
| C117 | `C117_times` | c q p |
| C117 | `C117_only_fibonacci` | c q p |
| C117 | `C117_every_fibonacci` | c q p |
| C118 | `C118_times_partial` | c q p |
| C118 | `C118_odd_partial` | c q p |
| C118 | `C118_odd_false` | c q p |
| C119 | `C119_pongs` | c q p |
| C120 | `C120_capacity` | c q p |
| C121 | `C121_occupancy_false` | c q p |
| C121 | `C121_counted_partial` | c q p |
| C122 | `C122_friends_false` | c q p |
| C122 | `C122_accepted_partial` | c q p |
| C123 | `C123_life` | c q p |
| C123 | `C123_never_alone` | c q p |
| C124 | `C124_leaves_false` | c q p |
| C124 | `C124_exit_false` | p |
| C124 | `C124_stays_full_false` | c q p |
| C124 | `C124_home_partial` | c q p |
| C125 | `C125_conserved` | c q p |
| C125 | `C125_step` | q p |
| C125 | `C125_on_grid` | q p |
| C126 | `C126_compute_gini` | c q p |
| C126 | `C126_gini` | c q p |
| C126 | `C126_bounds` | c q p |
| C126 | `C126_invariant` | c q p |
| C126 | `C126_reported` | c q p |
| C127 | `C127_activation` | q p |
| C127 | `C127_total` | q p |
| C127 | `C127_resistant` | q p |
| C127 | `C127_spread` | q p |
| C127 | `C127_chances` | c q p |
| C127 | `C127_states` | c q p |
| C128 | `C128_step_partial` | q p |
| C128 | `C128_resistant_idle` | p |
| C128 | `C128_states_false` | c q p |
| C128 | `C128_fate_partial` | c q p |
| C129 | `C129_litters` | c q p |
| C130 | `C130_basic_partial` | c q p |
| C130 | `C130_basic_false` | c q p |
| C130 | `C130_improved_partial` | c q p |
| C130 | `C130_improved_false` | c q p |
| C130 | `C130_due_partial` | c q p |
| C131 | `C131_basic_partial` | c q p |
| C131 | `C131_improved_false` | c q p |
| C131 | `C131_mating_partial` | c q p |
| C132 | `C132_age` | c q p |
| C133 | `C133_network` | c q p |
| C134 | `C134_few` | c q p |
| C134 | `C134_exact` | c q p |
| C134 | `C134_length` | c q p |
| C135 | `C135_graph_partial` | c q p |
| C135 | `C135_every_graph` | c q p |
| C135 | `C135_exact_false` | c q p |
| C135 | `C135_many_false` | c q p |
| C135 | `C135_small` | c q p |
| C136 | `C136_closed` | c q p |
| C136 | `C136_no_tv` | c q p |
| C136 | `C136_order` | c q p |
| C136 | `C136_stays` | c q p |
| C136 | `C136_neutral` | c q p |
| C136 | `C136_infect` | c q p |
| C136 | `C136_spread` | c q p |
| C137 | `C137_cured_false` | c q p |
| C137 | `C137_cure_partial` | c q p |
| C138 | `C138_defaults_false` | c q p |
| C138 | `C138_given_partial` | c q p |
| C139 | `C139_subgraph_partial` | q p |
| C139 | `C139_exact_partial` | c q p |
| C139 | `C139_other_agents_false` | c q p |
| C139 | `C139_no_position_false` | c q p |
| C139 | `C139_symmetric` | c q p |
| C139 | `C139_monotone` | c q p |
| C140 | `C140_bounds` | c q p |
| C141 | `C141_no_spontaneous` | c q p |
| C141 | `C141_for_ever` | c q p |
| C142 | `C142_no_interaction_false` | c q p |
| C142 | `C142_alone_partial` | c q p |
| C143 | `C143_influence_false` | c q p |
| C143 | `C143_group_partial` | c q p |
| C144 | `C144_network_false` | c q p |
| C144 | `C144_network_partial` | c q p |
| C144 | `C144_exact_partial` | c q p |
| C145 | `C145_stale_false` | c q p |
| C145 | `C145_degree_partial` | c q p |
| C145 | `C145_stale_degree_false` | c q p |
| C146 | `C146_occupation` | c q p |
| C146 | `C146_bounds` | c q p |
| C146 | `C146_directions` | c q p |
| C147 | `C147_cells` | c q p |
| C147 | `C147_total` | c q p |
| C148 | `C148_start` | c q p |
| C148 | `C148_streets` | c q p |
| C148 | `C148_fastest` | c q p |
| C148 | `C148_instant` | c q p |
| C149 | `C149_zero_false` | c q p |
| C149 | `C149_lazy_partial` | c q p |
| C150 | `C150_square_false` | q p |
| C150 | `C150_simple_false` | c q p |
| C150 | `C150_square_partial` | q p |
| C151 | `C151_move_to_false` | c q p |
| C151 | `C151_move_to_partial` | c q p |
| C152 | `C152_driver_kept` | c q p |
| C152 | `C152_one_driver` | c q p |
| C153 | `C153_earnings` | c q p |
| C153 | `C153_end` | c q p |
| C154 | `C154_never_times_out` | c q p |
| C155 | `C155_step` | c q p |
| C155 | `C155_delivery` | c q p |
| C156 | `C156_positions` | c q p |
| C157 | `C157_reachable_false` | c q p |
| C157 | `C157_square_partial` | c q p |
| C158 | `C158_passengers_false` | c q p |
| C158 | `C158_drivers_partial` | c q p |
| C159 | `C159_drivers_stop_last` | c q p |
| C159 | `C159_drivers_stop` | c q p |
| C160 | `C160_placed` | c q p |
| C160 | `C160_too_many` | c q p |
| C161 | `C161_passenger_stops` | c q p |
| C162 | `C162_timed` | c q p |
| C162 | `C162_pqueue` | c q p |
| C162 | `C162_mesa` | c q p |
| C162 | `C162_none` | c q p |
| C163 | `C163_declared_false` | c q p |
| C163 | `C163_any_false` | q p |
| C163 | `C163_second_false` | c q p |
| C163 | `C163_missing_false` | c q p |
| C163 | `C163_plain_partial` | c q p |
| C163 | `C163_continue_partial` | c q p |
| C163 | `C163_machines_partial` | q p |
| C164 | `C164_between_false` | c q p |
| C164 | `C164_agent_false` | c q p |
| C164 | `C164_stale_false` | c q p |
| C164 | `C164_within_partial` | c q p |
| C165 | `C165_stale_false` | c q p |
| C165 | `C165_none_false` | c q p |
| C165 | `C165_keys` | q p |
| C165 | `C165_current` | q p |
| C165 | `C165_variable` | q p |
| C166 | `C166_hidden_false` | c q p |
| C166 | `C166_self_partial` | c q p |
| C167 | `C167_elsewhere_false` | c q p |
| C167 | `C167_default_partial` | c q p |
| C168 | `C168_url_false` | c q p |
| C168 | `C168_arguments` | c q p |
| C169 | `C169_no_agents_false` | c q p |
| C169 | `C169_no_params_false` | c q p |
| C169 | `C169_twice_false` | c q p |
| C169 | `C169_read_back_partial` | c q p |
| C170 | `C170_step_false` | c q p |
| C170 | `C170_overwritten_false` | c q p |
| C170 | `C170_env_false` | c q p |
| C170 | `C170_written_partial` | c q p |
| C171 | `C171_lost_false` | q p |
| C171 | `C171_soil_partial` | q p |
| C172 | `C172_garbled_false` | c q p |
| C172 | `C172_order_partial` | c q p |
| C173 | `C173_end_false` | c q p |
| C173 | `C173_race_false` | q p |
| C173 | `C173_complete_partial` | c q p |
| C174 | `C174_overlap_false` | c q p |
| C174 | `C174_own_buffer_partial` | c q p |
| C174 | `C174_handlers` | c q p |
| C175 | `C175_results_false` | c q p |
| C175 | `C175_accepted_partial` | q p |
| C176 | `C176_settings` | c q p |
| C177 | `C177_closed_false` | q p |
| C177 | `C177_several_partial` | q p |
| C178 | `C178_ignored_false` | - |
| C178 | `C178_name_false` | p |
| C178 | `C178_defaults_partial` | p |
| C179 | `C179_steps_false` | q p |
| C179 | `C179_builtin_false` | c q p |
| C179 | `C179_step_false` | q p |
| C179 | `C179_drawn_partial` | c q p |
| C179 | `C179_model_df_partial` | c q p |
| C180 | `C180_mixed_false` | c q p |
| C180 | `C180_counts_partial` | c q p |
| C181 | `C181_current` | q p |
| C181 | `C181_new_model` | c q p |
| C182 | `C182_default_false` | p |
| C182 | `C182_drawn_partial` | q p |
| C183 | `C183_exactly_partial` | q p |
| C183 | `C183_numbers_false` | c q p |
| C183 | `C183_pairs_false` | c q p |
| C183 | `C183_classes_false` | c q p |
| C184 | `C184_objects_partial` | c q p |
| C184 | `C184_source_false` | c q p |
| C184 | `C184_builtin_false` | c q p |
| C185 | `C185_unchanged` | c q p |
| C185 | `C185_serialize_false` | p |
| C185 | `C185_fields` | q p |
| C186 | `C186_decorators_partial` | q p |
| C186 | `C186_order_false` | q p |
| C186 | `C186_names_partial` | q p |
| C186 | `C186_twice_false` | c q p |
| C187 | `C187_declare_partial` | q p |
| C187 | `C187_default_state_false` | c q p |
| C188 | `C188_others` | c q p |
| C188 | `C188_given_partial` | c q p |
| C188 | `C188_ignored_false` | c q p |
| C188 | `C188_methods` | c q p |
| C188 | `C188_readonly` | c q p |
| C189 | `C189_states` | q p |
| C189 | `C189_initial_partial` | q p |
| C189 | `C189_several_false` | p |
| C189 | `C189_lost_false` | c q p |
| C190 | `C190_assigned_partial` | c q p |
| C190 | `C190_never_false` | c q p |
| C190 | `C190_template_false` | c q p |
| C190 | `C190_unknown_false` | c q p |
| C191 | `C191_no_starvation_partial` | c q p |
| C191 | `C191_host_partial` | c q p |
| C191 | `C191_zeno_false` | c q p |
| C191 | `C191_additions_false` | c q p |
| C191 | `C191_pqueue_partial` | c q p |
| C191 | `C191_pqueue_host_partial` | c q p |
| C192 | `C192_subgraph_partial` | q p |
| C192 | `C192_neighbors` | q p |
| C192 | `C192_others_false` | q p |
| C193 | `C193_other_edges_partial` | q p |
| C193 | `C193_attributes_false` | q p |
| C193 | `C193_positional_false` | p |
| C194 | `C194_added_partial` | c q p |
| C194 | `C194_empty` | c q p |
| C194 | `C194_topology_false` | c q p |
| C194 | `C194_nodes_false` | c q p |
| C194 | `C194_raised_false` | c q p |
| C195 | `C195_nodes_partial` | q p |
| C195 | `C195_elsewhere_false` | q p |
| C195 | `C195_empty` | p |
| C196 | `C196_reported_partial` | c q p |
| C196 | `C196_object_partial` | c q p |
| C196 | `C196_counts` | c q p |
| C196 | `C196_exception_false` | c q p |
| C196 | `C196_object_false` | c q p |
| C197 | `C197_plain_partial` | c q p |
| C197 | `C197_with_false` | p |
| C198 | `C198_skipped_partial` | c q p |
| C198 | `C198_first_options` | c q p |
| C198 | `C198_shown` | c q p |
| C198 | `C198_skip_false` | c q p |
| C198 | `C198_later_false` | c q p |
| C198 | `C198_traceback_false` | c q p |
| C199 | `C199_written_partial` | c q p |
| C199 | `C199_again` | c q p |
| C199 | `C199_twice` | c q p |
| C199 | `C199_changed_false` | c q p |
| C200 | `C200_content_partial` | c q p |
| C200 | `C200_copied` | c q p |
| C200 | `C200_mode_false` | c q p |
| C200 | `C200_copy_false` | c q p |
| C201 | `C201_distinct_partial` | c q p |
| C201 | `C201_value` | c q p |
| C201 | `C201_nul_false` | p |
| C202 | `C202_one_poll_partial` | c q p |
| C202 | `C202_polling_ends` | q p |
| C202 | `C202_two_polls_false` | c q p |
| C202 | `C202_overlap_false` | q p |
| C203 | `C203_time_monotone_partial` | c q p |
| C203 | `C203_next_activation_partial` | c q p |
| C203 | `C203_conservation_partial` | c q p |
| C203 | `C203_step_runs_due_partial` | c q p |
| C203 | `C203_no_delay_lost_partial` | c q p |
| C203 | `C203_dyadic_exact_partial` | c q p |
| C203 | `C203_drift_false` | c q p |
| C203 | `C203_stall_false` | c q p |
| C203 | `C203_mixed_false` | c q p |
| C203 | `C203_at_false` | c q p |
| C204 | `C204_numbers_partial` | c q p |
| C204 | `C204_draws_partial` | c q p |
| C204 | `C204_kept` | c q p |
| C204 | `C204_tie_false` | c q p |
| C204 | `C204_raises` | c q p |
| C205 | `C205_agents_partial` | c q p |
| C205 | `C205_rejects` | c q p |
| C205 | `C205_missing_false` | c q p |
| C205 | `C205_warning_false` | c q p |
| C205 | `C205_overfull_false` | c q p |
| C205 | `C205_zero_false` | c q p |
| C206 | `C206_interval_partial` | c q p |
| C206 | `C206_integers_partial` | c q p |
| C206 | `C206_dyadic_partial` | c q p |
| C206 | `C206_drift_partial` | c q p |
| C206 | `C206_advances_partial` | c q p |
| C206 | `C206_early_false` | c q p |
| C206 | `C206_stall_false` | c q p |
| C207 | `C207_get_partial` | q p |
| C207 | `C207_iter_partial` | q p |
| C207 | `C207_removed_false` | q p |
| C207 | `C207_first_false` | q p |
| C207 | `C207_late_false` | q p |
| C208 | `C208_life` | c q p |
| C209 | `C209_mating` | c q p |
| C209 | `C209_litter` | c q p |
| C209 | `C209_children` | c q p |
| C209 | `C209_once_false` | c q p |
| C210 | `C210_network` | c q p |
| C210 | `C210_family` | c q p |
| C211 | `C211_exact_partial` | c q p |
| C211 | `C211_frozen_false` | c q p |
| C211 | `C211_few` | c q p |
| C212 | `C212_only_partial` | c q p |
| C212 | `C212_orphan_false` | c q p |
| C212 | `C212_accident_false` | c q p |
| C213 | `C213_terrorist` | c q p |
| C213 | `C213_leader` | c q p |
| C213 | `C213_apart` | c q p |
| C214 | `C214_dictionary_partial` | c q p |
| C214 | `C214_popitem_false` | c q p |
| C214 | `C214_update_false` | c q p |
| C214 | `C214_class_false` | p |
| C215 | `C215_conserved_partial` | c q p |
| C215 | `C215_never_lost` | c q p |
| C215 | `C215_expiration` | c q p |
| C215 | `C215_order` | c q p |
| C215 | `C215_once_partial` | c q p |
| C215 | `C215_replies` | c q p |
| C215 | `C215_twice_false` | c q p |
| C215 | `C215_sent` | c q p |
| C215 | `C215_pqueue` | c q p |
| C215 | `C215_pqueue_conserved_partial` | c q p |
| C215 | `C215_pqueue_twice_false` | c q p |
| C215 | `C215_pqueue_times` | c q p |
| C216 | `C216_round_trip_partial` | c q p |
| C216 | `C216_injective_partial` | c q p |
| C216 | `C216_inf_false` | c q p |
| C216 | `C216_type_false` | c q p |
| C217 | `C217_names` | c q p |
| C217 | `C217_grows_false` | c q p |
| C217 | `C217_round_trip_partial` | c q p |
| C218 | `C218_looks` | c q p |
| C218 | `C218_noticed` | c q p |
| C218 | `C218_gave_up_partial` | c q p |
| C218 | `C218_answered_partial` | c q p |
| C218 | `C218_late_false` | c q p |
| C218 | `C218_falsy_false` | c q p |
| C219 | `C219_next_activation_partial` | c q p |
| C219 | `C219_step_partial` | c q p |
| C219 | `C219_no_delay_lost_partial` | c q p |
| C219 | `C219_endless_false` | c q p |
| C220 | `C220_served` | c q p |
| C220 | `C220_yields` | c q p |
| C220 | `C220_timeout` | c q p |
| C220 | `C220_round_trip` | c q p |
| C221 | `C221_one_partial` | p |
| C221 | `C221_super` | p |
| C221 | `C221_nested_false` | p |
| C221 | `C221_two_false` | q p |
| C222 | `C222_undeclared` | c q p |
| C222 | `C222_declared_partial` | c q p |
| C222 | `C222_raises_false` | q p |
| C222 | `C222_other_false` | c q p |
| C222 | `C222_param_false` | c q p |
| C223 | `C223_activations` | c q p |
| C223 | `C223_total` | c q p |
| C223 | `C223_mesa` | c q p |
| C223 | `C223_steps_partial` | c q p |
| C223 | `C223_hangs_false` | c q p |
| C223 | `C223_states` | c q p |
| C223 | `C223_states_hangs_false` | c q p |
| C224 | `C224_others_partial` | c q p |
| C224 | `C224_clock_partial` | c q p |
| C224 | `C224_lost_false` | c q p |
| C224 | `C224_lost_acts_false` | c q p |
| C224 | `C224_newborn_false` | c q p |
| C224 | `C224_never_false` | c q p |
| C224 | `C224_endless_false` | c q p |
| C224 | `C224_heap_false` | c q p |
| C224 | `C224_heap_late_false` | c q p |
| C224 | `C224_heap_clock_partial` | c q p |
| C224 | `C224_numbers_partial` | c q p |
| C225 | `C225_order` | c q p |
| C225 | `C225_text_partial` | c q p |
| C225 | `C225_many_false` | c q p |
| C225 | `C225_collision_false` | c q p |
| C225 | `C225_told_apart_partial` | c q p |
| C225 | `C225_repeated_false` | c q p |
| C225 | `C225_read_back_partial` | c q p |
| C225 | `C225_nested_false` | c q p |
| C226 | `C226_ratios_partial` | c q p |
| C226 | `C226_negative_false` | c q p |
| C226 | `C226_pairs_false` | c q p |
| C227 | `C227_history_partial` | c q p |
| C227 | `C227_unreadable_false` | c q p |
| C228 | `C228_runs` | p |
| C228 | `C228_convert` | p |
| C228 | `C228_errors_partial` | p |
| C228 | `C228_swallowed_false` | p |
| C228 | `C228_missing_false` | - |
| C228 | `C228_pdb_argument_false` | q p |
| C228 | `C228_leak_false` | p |
| C228 | `C228_independent_partial` | p |
| C228 | `C228_debug_leak_false` | p |
| C228 | `C228_easy` | p |
| C229 | `C229_runs_partial` | q p |
| C229 | `C229_set_partial` | q p |
| C229 | `C229_set_false` | q p |
| C230 | `C230_rounds_partial` | c q p |
| C230 | `C230_counts_partial` | c q p |
| C230 | `C230_mesa_partial` | c q p |
| C230 | `C230_ordered_partial` | c q p |
| C230 | `C230_ends_partial` | c q p |
| C230 | `C230_removed_false` | c q p |
| C230 | `C230_added_false` | c q p |
| C230 | `C230_pqueue_partial` | c q p |
| C230 | `C230_agree_partial` | c q p |
| C230 | `C230_pqueue_ends_partial` | c q p |
| C231 | `C231_init` | c q p |
| C231 | `C231_counters` | c q p |
| C231 | `C231_run` | c q p |
| C232 | `C232_counts` | c q p |
| C232 | `C232_ends` | c q p |
| C232 | `C232_average` | c q p |
| C233 | `C233_states_partial` | c q p |
| C233 | `C233_front_partial` | c q p |
| C233 | `C233_along_partial` | c q p |
| C233 | `C233_shrinks_false` | c q p |
| C233 | `C233_pqueue_partial` | c q p |
| C233 | `C233_pqueue_false` | c q p |
| C234 | `C234_aware_partial` | c q p |
| C234 | `C234_exact_partial` | c q p |
| C234 | `C234_network_false` | c q p |
| C234 | `C234_pqueue_partial` | c q p |
| C235 | `C235_exact_partial` | c q p |
| C235 | `C235_earliest_partial` | c q p |
| C235 | `C235_zero_false` | c q p |
| C235 | `C235_starves_false` | c q p |
| C236 | `C236_clock` | c q p |
| C236 | `C236_wakeups` | c q p |
| C236 | `C236_exact_false` | c q p |
| C236 | `C236_endless_false` | c q p |
| C237 | `C237_run_partial` | c q p |
| C237 | `C237_links_partial` | c q p |
| C237 | `C237_frames_false` | c q p |
| C237 | `C237_sink_false` | c q p |
| C237 | `C237_single_false` | c q p |
| C238 | `C238_journeys_partial` | c q p |
| C238 | `C238_lockstep_partial` | c q p |
| C238 | `C238_occupation` | c q p |
| C238 | `C238_rest_false` | c q p |
| C238 | `C238_empty_false` | c q p |
| C238 | `C238_agents` | c q p |
| C239 | `C239_home` | c q p |
| C239 | `C239_room` | c q p |
| C239 | `C239_open` | c q p |
| C239 | `C239_alone_false` | c q p |
| C239 | `C239_places_false` | c q p |
| C239 | `C239_pqueue` | c q p |
| C239 | `C239_pqueue_open` | c q p |
| C239 | `C239_pqueue_false` | c q p |
| C240 | `C240_runs_partial` | c q p |
| C240 | `C240_reach_partial` | c q p |
| C240 | `C240_speed_partial` | c q p |
| C240 | `C240_wise_false` | c q p |
| C240 | `C240_silent_false` | c q p |
| C241 | `C241_link_partial` | c q p |
| C241 | `C241_raises_false` | c q p |
| C241 | `C241_far_false` | c q p |
| C241 | `C241_refines` | c q p |
| C242 | `C242_radical_false` | c q p |
| C242 | `C242_spread_partial` | c q p |
| C242 | `C242_history` | c q p |
| C242 | `C242_peace_partial` | c q p |
| C243 | `C243_outbreak` | c q p |
| C243 | `C243_rejected` | q p |
| C243 | `C243_reports` | c q p |
| C243 | `C243_whole` | c q p |
| C244 | `C244_run_partial` | c q p |
| C244 | `C244_degenerate_false` | c q p |
| C244 | `C244_last_false` | c q p |
| C244 | `C244_self_false` | q p |
| C245 | `C245_home` | c q p |
| C245 | `C245_ends` | c q p |
| C245 | `C245_complete` | c q p |
| C245 | `C245_default` | c q p |
| C245 | `C245_alone` | c q p |
| C246 | `C246_run` | c q p |
| C246 | `C246_safe` | c q p |
| C246 | `C246_home` | c q p |
| C246 | `C246_ends` | c q p |
| C246 | `C246_default` | c q p |
| C246 | `C246_scheduled_false` | c q p |
| C246 | `C246_draws` | c q p |
| C247 | `C247_refines` | c q p |
| C247 | `C247_transfer` | c q p |
| C247 | `C247_safe` | c q p |
| C247 | `C247_outcome` | c q p |
| C247 | `C247_endless_false` | c q p |
| C248 | `C248_run` | c q p |
| C248 | `C248_safe` | c q p |
| C248 | `C248_ends` | c q p |
| C248 | `C248_stops` | c q p |
| C249 | `C249_refines` | c q p |
| C249 | `C249_transfer` | c q p |
| C249 | `C249_same_runs` | c q p |
| C249 | `C249_ordered_false` | c q p |
| C250 | `C250_same` | c q p |
| C250 | `C250_converse` | c q p |
| C250 | `C250_lockstep` | c q p |
| C250 | `C250_lockstep_converse` | c q p |
| C250 | `C250_lock_clock` | c q p |
| C250 | `C250_lock_clock_pqueue` | c q p |
| C250 | `C250_adds_false` | c q p |
| C250 | `C250_empty_false` | c q p |
| C250 | `C250_end` | q p |
| C250 | `C250_lock_code` | c q p |
| C251 | `C251_construct` | c q p |
| C251 | `C251_name` | c q p |
| C251 | `C251_launch` | c q p |
| C251 | `C251_compose` | c q p |
| C251 | `C251_class_partial` | c q p |
| C251 | `C251_run_partial` | c q p |
| C251 | `C251_empty_name_false` | c q p |
| C251 | `C251_test_name_false` | c q p |
| C251 | `C251_other_model_false` | c q p |
| C251 | `C251_pubcrawl_false` | c q p |
| C251 | `C251_source` | c q p |
| C252 | `C252_grows_false` | c q p |
| C252 | `C252_returns_false` | c q p |
| C252 | `C252_run_partial` | c q p |
| C252 | `C252_pair` | c q p |
| C252 | `C252_raises` | c q p |
| C252 | `C252_due` | c q p |
| C252 | `C252_events` | c q p |
| C252 | `C252_numbers` | q p |
| C253 | `C253_steps` | c q p |
| C253 | `C253_max_steps` | c q p |
| C253 | `C253_max_time` | c q p |
| C253 | `C253_pqueue` | c q p |
| C253 | `C253_pqueue_max_time` | c q p |
| C253 | `C253_pongs` | c q p |
| C253 | `C253_pongs_max_time` | c q p |
| C253 | `C253_pongs_pqueue` | c q p |
| C253 | `C253_pongs_endless` | c q p |
| C254 | `C254_init` | c q p |
| C254 | `C254_run_partial` | c q p |
| C254 | `C254_nodes_false` | c q p |
| C254 | `C254_start` | c q p |
| C254 | `C254_full_partial` | c q p |
| C255 | `C255_timed` | c q p |
| C255 | `C255_pqueue` | c q p |
| C255 | `C255_agree` | c q p |
| C255 | `C255_counters` | c q p |
| C255 | `C255_raises` | c q p |
| C255 | `C255_praises` | c q p |
| C256 | `C256_clock` | c q p |
| C256 | `C256_ends` | c q p |
| C256 | `C256_returns` | c q p |
| C256 | `C256_extinct` | c q p |
| C256 | `C256_unlimited` | c q p |
| C257 | `C257_terminates` | c q p |
| C257 | `C257_rushed` | c q p |
| C257 | `C257_rabbits` | c q p |
| C258 | `C258_exists` | c q p |
| C258 | `C258_history` | c q p |
| C258 | `C258_simulation` | c q p |
| C258 | `C258_pexists` | c q p |
| C258 | `C258_phistory` | c q p |
| C258 | `C258_psimulation` | c q p |
| C258 | `C258_interval` | c q p |
| C259 | `C259_exists` | c q p |
| C259 | `C259_timed_partial` | c q p |
| C259 | `C259_simulation_partial` | c q p |
| C259 | `C259_past_false` | c q p |
| C259 | `C259_pqueue_partial` | c q p |
| C259 | `C259_pqueue_false` | c q p |
| C259 | `C259_psimulation_partial` | c q p |
| C260 | `C260_exists` | q p |
| C260 | `C260_history` | c q p |
| C260 | `C260_simulation` | c q p |
| C260 | `C260_pexists` | q p |
| C260 | `C260_phistory` | c q p |
| C260 | `C260_injective` | c q p |
| C260 | `C260_ids` | c q p |
| C260 | `C260_psimulation` | c q p |
| C261 | `C261_history` | c q p |
| C261 | `C261_simulation` | c q p |
| C261 | `C261_phistory` | c q p |
| C261 | `C261_notes` | c q p |
| C261 | `C261_psimulation` | c q p |
| C262 | `C262_continue` | c q p |
| C262 | `C262_raised` | c q p |
| C262 | `C262_returns` | c q p |
| C262 | `C262_prefix` | c q p |
| C262 | `C262_pprefix` | c q p |
| C263 | `C263_idle` | c q p |
| C263 | `C263_shuffled` | c q p |
