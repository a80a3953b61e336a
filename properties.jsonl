{"id": "C01", "title": "Simulated time never goes backwards", "statement": "With the default scheduler, if no agent ever asks for a negative delay, the value of env.now (schedule.time) after any sequence of env.step() calls and agent additions/removals is never smaller than it was before, and it is never negative.", "quantifier": "every agent behaviour (any code, may add/remove agents while stepping), every population, every shuffle outcome, every history of steps and additions", "why_tests_cant": "A test runs a handful of delays; monotonicity has to survive every interleaving of delays, additions and shuffles.", "anchors": ["soil/time.py:TimedActivation.step", "soil/time.py:TimedActivation._schedule", "soil/time.py:TimedActivation.add"]}
{"id": "C02", "title": "Agents wake exactly when they asked to", "statement": "If an agent was added once, its first activation happens at the time it was added; if an activation at time t returned delay d (default interval when it returned None or 0), its next activation happens at exactly time t+d, neither earlier nor later, and there is no activation in between.", "quantifier": "every agent behaviour with non-negative delays, every population, every shuffle, every history length", "why_tests_cant": "The property relates arbitrary pairs of activations in unbounded histories; tests check a few hand-picked delays.", "anchors": ["soil/time.py:TimedActivation.step", "soil/time.py:TimedActivation._schedule", "soil/agents/__init__.py:BaseAgent.delay", "soil/agents/__init__.py:BaseAgent.at"]}
{"id": "C03", "title": "No agent is lost or duplicated by the scheduler", "statement": "At any point between steps every agent that was added and has not finished (raised DeadAgent, or asked for an infinite delay) is pending exactly once per addition, at exactly the time implied by its last activation; nothing else is pending.", "quantifier": "every history of additions, removals and steps in which no agent step raises an unexpected exception", "why_tests_cant": "Loss or duplication only shows for specific collisions of wake-up times; histories are unbounded.", "anchors": ["soil/time.py:TimedActivation.step", "soil/time.py:TimedActivation._schedule", "soil/time.py:TimedActivation.add"]}
{"id": "C04", "title": "One step runs exactly the agents due at the earliest pending instant", "statement": "A scheduler step with pending agents activates precisely the agents pending at the earliest pending time at the start of the step, each exactly once per pending entry; the shuffle only permutes them.", "quantifier": "every reachable scheduler state, every behaviour, every random shuffle", "why_tests_cant": "All shuffles of all bucket contents cannot be enumerated.", "anchors": ["soil/time.py:TimedActivation.step"]}
{"id": "C05", "title": "OrderedTimedActivation is first-scheduled first-run", "statement": "With OrderedTimedActivation, agents due at the same instant run in the order in which they were scheduled for that instant, so a run is a deterministic function of the behaviours.", "quantifier": "every reachable state of an unshuffled scheduler", "why_tests_cant": "Ordering must hold for every pattern of collisions.", "anchors": ["soil/time.py:OrderedTimedActivation", "soil/time.py:TimedActivation._schedule"]}
{"id": "C06", "title": "No agent acts twice at the same instant", "statement": "If delays are never negative, then two different activations of one (once-added) agent happen at strictly increasing times; in particular asking for a delay of 0 does not re-run the agent at the same instant.", "quantifier": "every history", "why_tests_cant": "Zeno-style repeats need specific combinations of zero delays, default interval and bucket merging.", "anchors": ["soil/time.py:TimedActivation.step", "soil/time.py:DiscreteActivation.default_interval"]}
{"id": "C07", "title": "An exhausted schedule is quiescent", "statement": "When the last pending agent finishes, time becomes infinity; every further step leaves time, step count, pending agents and all agents unchanged.", "quantifier": "every history that exhausts the schedule, any number of further steps", "why_tests_cant": "Unbounded number of further steps.", "anchors": ["soil/time.py:TimedActivation.step"]}
{"id": "C08", "title": "schedule.add(agent, when=t) schedules the first activation at t", "statement": "Passing an explicit `when` to schedule.add makes the first activation of the agent happen at that time.", "quantifier": "every scheduler state and every `when`", "why_tests_cant": "Existing tests never pass `when`; the claim is about every value of it.", "anchors": ["soil/time.py:TimedActivation.add", "soil/time.py:PQueueActivation.add"]}
{"id": "C09", "title": "Agents added while the simulation is running are run", "statement": "An agent added during a step (by another agent) or between steps is activated for the first time at the current time, in a later step than the one running, and is not skipped.", "quantifier": "every behaviour that adds agents, every time", "why_tests_cant": "Depends on the interaction of mid-step insertion and bucket popping for arbitrary states.", "anchors": ["soil/time.py:TimedActivation.add", "soil/environment.py:BaseEnvironment.add_agent"]}
{"id": "C10", "title": "An exception in one agent does not lose the others", "statement": "If one agent's step raises an unexpected exception out of env.step(), the agents that were due at the same instant and had not run yet are still pending, so stepping can be resumed.", "quantifier": "every position of the failing agent, every state", "why_tests_cant": "Crash points: every position in every bucket.", "anchors": ["soil/time.py:TimedActivation.step"]}
{"id": "C11", "title": "PQueueActivation wakes agents exactly when they asked to", "statement": "With PQueueActivation and a population added at time 0, each agent's activations are at time 0 and then at exactly t+d after an activation at t that returned d; a step runs all agents due and only those, and then time is the earliest pending time.", "quantifier": "every behaviour with positive effective delays, every random tie-breaking", "why_tests_cant": "Unbounded histories and all random keys.", "anchors": ["soil/time.py:PQueueActivation.step", "soil/time.py:PQueueActivation._schedule"]}
{"id": "C12", "title": "PQueueActivation.add keeps the agents already scheduled", "statement": "Adding an agent to a PQueueActivation never removes another agent's pending activation and always adds one for the new agent.", "quantifier": "every scheduler state and time", "why_tests_cant": "Depends on the clock value at the time of addition; tests only add at time 0.", "anchors": ["soil/time.py:PQueueActivation.add", "soil/time.py:PQueueActivation._schedule"]}
{"id": "C13", "title": "Both schedulers give every agent the same timeline", "statement": "For a fixed population whose delays depend only on the agent's own history, TimedActivation and PQueueActivation activate each agent at the same sequence of times.", "quantifier": "every population, every own-history delay policy, every shuffle/tie-break of either scheduler", "why_tests_cant": "Cross-implementation equivalence over unbounded runs.", "anchors": ["soil/time.py:PQueueActivation.step", "soil/time.py:TimedActivation.step"]}
{"id": "C14", "title": "Lockstepper covers exactly one interval per step", "statement": "Each Lockstepper.step that returns advances its time by exactly one interval and leaves the wrapped scheduler at a time not earlier than the end of the interval, having run exactly the activations due before it.", "quantifier": "every wrapped scheduler state, interval and behaviour", "why_tests_cant": "Interval boundaries against arbitrary event times.", "anchors": ["soil/time.py:Lockstepper.step"]}
{"id": "C15", "title": "agent.at(t) wakes the agent at t", "statement": "An agent that returns self.at(t) with t later than now is next activated at exactly time t.", "quantifier": "every time and every scheduler, including Lockstepper", "why_tests_cant": "Depends on which clock `now` reads; boundaries for every t.", "anchors": ["soil/agents/__init__.py:BaseAgent.at", "soil/time.py:Lockstepper", "soil/time.py:TimedActivation.step"]}
{"id": "C16", "title": "max_time is an open bound on activity", "statement": "In a simulation with max_time, no agent is activated at a time >= max_time, and when the run ends because of max_time every activation due before max_time has been performed.", "quantifier": "every model, every max_time, every history", "why_tests_cant": "All event times around the bound.", "anchors": ["soil/simulation.py:Simulation._run_model", "soil/time.py:TimedActivation.step"]}
{"id": "C17", "title": "max_steps is an exact bound on steps", "statement": "A run with max_steps = n and the model still active ends with exactly n scheduler steps and never more.", "quantifier": "every model and n", "why_tests_cant": "Unbounded runs.", "anchors": ["soil/simulation.py:Simulation._run_model"]}
{"id": "C18", "title": "A bounded simulation terminates", "statement": "A simulation with a max_time whose agents always wait at least some fixed positive delay and which adds no agents while running terminates.", "quantifier": "every model satisfying the premise, every max_time, every delay bound", "why_tests_cant": "Termination is not testable.", "anchors": ["soil/simulation.py:Simulation._run_model", "soil/time.py:TimedActivation.step"]}
{"id": "C19", "title": "A simulation ends when all its agents are done", "statement": "When every agent has died or asked never to be woken again, Simulation.run returns, whatever the max_time/max_steps settings.", "quantifier": "every model that becomes inactive, every combination of bounds", "why_tests_cant": "Non-termination cannot be observed by a test.", "anchors": ["soil/simulation.py:Simulation._run_model", "soil/time.py:TimedActivation.step", "soil/time.py:PQueueActivation.step"]}
{"id": "C20", "title": "The command line respects the simulation's own limits", "statement": "Running a simulation through soil.main without --max_time/--max_steps uses the max_time/max_steps configured in the simulation.", "quantifier": "every simulation and every set of options", "why_tests_cant": "Option combinations.", "anchors": ["soil/__init__.py:main", "soil/simulation.py:Simulation.run"]}
{"id": "C21", "title": "Generator steps are resumed, one segment per activation", "statement": "If an agent's step is a generator/coroutine, successive activations execute its body segment by segment in order, each segment exactly once; when the body returns, its return value is used as the delay and the next activation starts a new run of the body.", "quantifier": "every generator body, any number of activations", "why_tests_cant": "All bodies, all lengths.", "anchors": ["soil/agents/__init__.py:decorate_generator_step"]}
{"id": "C22", "title": "A failing generator step restarts cleanly", "statement": "After an exception escapes a generator step, the next activation starts a new run of the body.", "quantifier": "every body and every failure point", "why_tests_cant": "Crash points.", "anchors": ["soil/agents/__init__.py:decorate_generator_step"]}
{"id": "C23", "title": "FSM return value contract", "statement": "What a state function returns determines the next state and delay: None keeps the state with default delay; a state or declared state id moves to it with default delay; a (state, delay) pair moves and waits; a number or Delay keeps the state and waits. Anything else is an error and leaves the state unchanged.", "quantifier": "every return value, every set of declared states", "why_tests_cant": "The value space is unbounded and has corner cases (e.g. ids of length two).", "anchors": ["soil/agents/fsm.py:FSM.step", "soil/agents/fsm.py:FSM._set_state"]}
{"id": "C24", "title": "An FSM agent is always in a declared state", "statement": "Whatever its state functions return, after every step the agent's state_id is one of the states declared by its class.", "quantifier": "every behaviour and history", "why_tests_cant": "Unbounded histories.", "anchors": ["soil/agents/fsm.py:FSM._set_state", "soil/agents/fsm.py:FSM.step", "soil/agents/fsm.py:FSM.__init__"]}
{"id": "C25", "title": "State cannot be forced after the start", "statement": "agent.set_state raises and changes nothing once simulated time is positive; at time zero it accepts exactly the declared states.", "quantifier": "every time and argument", "why_tests_cant": "All times/values.", "anchors": ["soil/agents/fsm.py:FSM.set_state"]}
{"id": "C26", "title": "Dead agents do not act", "statement": "Once an agent has died (by itself or killed by another agent) none of its code runs again in the simulation, even if it was already scheduled.", "quantifier": "every behaviour, every moment of death, every agent kind", "why_tests_cant": "Every interleaving of death and pending activations.", "anchors": ["soil/agents/__init__.py:BaseAgent.die", "soil/agents/__init__.py:BaseAgent._check_alive", "soil/agents/fsm.py:FSM.step", "soil/time.py:TimedActivation.step"]}
{"id": "C27", "title": "Stepping a dead agent always reports it", "statement": "Calling step() on a dead agent raises DeadAgent, every time it is called.", "quantifier": "any number of calls", "why_tests_cant": "Unbounded repetition.", "anchors": ["soil/agents/fsm.py:FSM.step", "soil/agents/__init__.py:decorate_generator_step"]}
{"id": "C28", "title": "States are inherited and overridable", "statement": "A subclass has all the states of its bases; a state it redefines replaces the inherited one everywhere, including as the initial state; the initial state is the one marked default.", "quantifier": "every class hierarchy", "why_tests_cant": "All hierarchies.", "anchors": ["soil/agents/fsm.py:MetaFSM.__new__"]}
{"id": "C29", "title": "Attribute initialisation precedence", "statement": "An agent's public attribute has, in order of precedence, the value passed to the constructor, the model's attribute of the same name if not None, or the class default; class-level defaults of a subclass override those of its bases.", "quantifier": "every set of attributes, models and hierarchies", "why_tests_cant": "All combinations.", "anchors": ["soil/agents/__init__.py:MetaAgent.__new__", "soil/agents/__init__.py:BaseAgent.__init__"]}
{"id": "C30", "title": "Agents do not share mutable defaults", "statement": "Two agents of the same class whose attribute comes from the class default never share the same mutable object, so mutating one agent's attribute cannot change another's.", "quantifier": "every number of agents and mutations", "why_tests_cant": "Aliasing over arbitrary histories.", "anchors": ["soil/agents/__init__.py:BaseAgent.__init__", "soil/agents/__init__.py:MetaAgent.__new__"]}
{"id": "C31", "title": "Automatic ids are unique", "statement": "Agents added without an explicit unique_id get pairwise different ids, the first being 0; ids never repeat even after agents die.", "quantifier": "every history of additions and deaths", "why_tests_cant": "Unbounded histories.", "anchors": ["soil/environment.py:BaseEnvironment.add_agent", "soil/environment.py:BaseEnvironment.__init__"]}
{"id": "C32", "title": "Agents and environments behave as dictionaries", "statement": "env[k]=v / agent[k]=v followed by reads returns v, does not disturb other keys, deletion makes the key absent (KeyError), `in` agrees with reads, private names and model/logger are not listed as keys.", "quantifier": "every sequence of operations", "why_tests_cant": "Operation sequences are unbounded.", "anchors": ["soil/environment.py:BaseEnvironment.__getitem__", "soil/agents/__init__.py:BaseAgent.__getitem__", "soil/agents/__init__.py:BaseAgent.keys", "soil/agents/__init__.py:BaseAgent.get"]}
{"id": "C33", "title": "prob(p) respects its bounds", "statement": "prob(p) is never true for p <= 0, always true for p >= 1, and for the same random state is monotone in p.", "quantifier": "every p and every random state", "why_tests_cant": "Random draws.", "anchors": ["soil/agents/__init__.py:prob", "soil/agents/__init__.py:BaseAgent.prob"]}
{"id": "C34", "title": "Messages are handled once, in order", "statement": "process_messages hands every message in the inbox that has not expired to on_receive exactly once, in arrival order, returns exactly those, and leaves the inbox empty.", "quantifier": "every inbox, every handler, every time", "why_tests_cant": "All inbox contents and expiry patterns.", "anchors": ["soil/agents/evented.py:EventedAgent.process_messages", "soil/events.py:Message.expired"]}
{"id": "C35", "title": "Failure of a handler does not duplicate deliveries", "statement": "If on_receive raises for some message, messages already handled are not handled again by the next process_messages.", "quantifier": "every crash point in every inbox", "why_tests_cant": "Crash points.", "anchors": ["soil/agents/evented.py:EventedAgent.process_messages"]}
{"id": "C36", "title": "Broadcast reaches everyone else once", "statement": "broadcast puts exactly one copy of the message in the inbox of every scheduled agent that matches the filter and can receive events, except the sender, and changes no other inbox; with a ttl the copy is dropped exactly when it is processed later than now+ttl.", "quantifier": "every population, sender, filter, ttl and processing time", "why_tests_cant": "All populations.", "anchors": ["soil/environment.py:EventedEnvironment.broadcast", "soil/events.py:Message.expired"]}
{"id": "C37", "title": "received() returns the messages", "statement": "Awaiting self.received() returns the messages that were in the inbox when it woke up, and raises TimedOut only if none arrived before the deadline.", "quantifier": "every arrival pattern, timeout and polling delay", "why_tests_cant": "Timing interleavings.", "anchors": ["soil/agents/evented.py:EventedAgent.received"]}
{"id": "C38", "title": "ask() returns the reply", "statement": "Awaiting target.ask(msg) returns what the target's on_receive returned for that message as soon as it has been processed, and raises TimedOut only if it was not processed before the deadline; the target sees the asker as sender.", "quantifier": "every reply value, processing time, timeout", "why_tests_cant": "Timing and value space.", "anchors": ["soil/agents/evented.py:EventedAgent.ask", "soil/agents/evented.py:EventedAgent.process_messages"]}
{"id": "C39", "title": "Agents and nodes stay linked one to one", "statement": "After any sequence of add_agent/add_node/populate_network/die, every living network agent sits on a node of the graph whose 'agent' is that agent, so no two living agents share a node.", "quantifier": "every graph, every history of additions and deaths, every random choice", "why_tests_cant": "Histories and random choices.", "anchors": ["soil/agents/network_agents.py:NetworkAgent.__init__", "soil/environment.py:NetworkEnvironment.add_node", "soil/environment.py:NetworkEnvironment.populate_network", "soil/agents/network_agents.py:NetworkAgent.remove_node"]}
{"id": "C40", "title": "A node is created only when the network is full", "statement": "Adding a network agent without a node_id uses a free node if there is one, and otherwise a fresh node.", "quantifier": "every graph, occupancy and random draw", "why_tests_cant": "Random draws.", "anchors": ["soil/agents/network_agents.py:NetworkAgent.__init__"]}
{"id": "C41", "title": "populate_network fills the network", "statement": "populate_network leaves every node with an agent, never displaces an agent that was already on a node, and adds exactly as many agents as there were nodes without one.", "quantifier": "every graph, prior occupancy, class list and weights", "why_tests_cant": "All graphs.", "anchors": ["soil/environment.py:NetworkEnvironment.populate_network"]}
{"id": "C42", "title": "find_unassigned finds a free node iff there is one", "statement": "find_unassigned returns a node without an agent whenever one exists, and None otherwise, whatever the shuffle; add_node therefore never displaces an agent.", "quantifier": "every graph and shuffle", "why_tests_cant": "Random shuffles.", "anchors": ["soil/network.py:find_unassigned", "soil/environment.py:NetworkEnvironment.add_node"]}
{"id": "C43", "title": "Neighbours are the living agents on adjacent nodes", "statement": "get_neighbors returns exactly the scheduled agents sitting on nodes adjacent to the agent's node (each once); on an undirected graph being a neighbour is symmetric, and count_neighbors agrees.", "quantifier": "every graph, placement and set of living agents", "why_tests_cant": "All graphs.", "anchors": ["soil/agents/network_agents.py:NetworkAgent.iter_agents", "soil/agents/network_agents.py:NetworkAgent.get_neighbors", "soil/agents/network_agents.py:NetworkAgent.count_neighbors"]}
{"id": "C44", "title": "Death removes an agent from everything", "statement": "After a network agent dies (default arguments) it is in nobody's neighbours, not in the graph, not in get_agents, not in network_agents, and receives no broadcast.", "quantifier": "every state and history", "why_tests_cant": "Cross-component invariant over all states.", "anchors": ["soil/agents/network_agents.py:NetworkAgent.die", "soil/agents/__init__.py:BaseAgent.die", "soil/environment.py:NetworkEnvironment.network_agents"]}
{"id": "C45", "title": "add_edge links exactly the two agents", "statement": "add_edge makes both agents neighbours of each other, changes no other adjacency, creates no node, and raises leaving the graph unchanged if either agent is no longer in the network.", "quantifier": "every graph and pair of agents", "why_tests_cant": "All graphs.", "anchors": ["soil/agents/network_agents.py:NetworkAgent.add_edge", "soil/agents/network_agents.py:NetworkAgent.remove_node"]}
{"id": "C46", "title": "An agent can look up others by id", "statement": "agent.get_agents(unique_id=x) returns exactly the agents with that id.", "quantifier": "every population and id, both for plain and network agents", "why_tests_cant": "All populations.", "anchors": ["soil/agents/__init__.py:filter_agents", "soil/agents/network_agents.py:NetworkAgent.iter_agents"]}
{"id": "C47", "title": "get_agents returns the conjunction of its criteria", "statement": "get_agents(**criteria) returns exactly the scheduled agents that satisfy all the given criteria (class, state id, attribute values), in scheduling order.", "quantifier": "every population and every set of criteria", "why_tests_cant": "All combinations of criteria.", "anchors": ["soil/agents/__init__.py:filter_agents", "soil/agents/__init__.py:AgentView"]}
{"id": "C48", "title": "limit truncates", "statement": "With limit=n the result is the first n agents of the unlimited result.", "quantifier": "every population, criteria and n", "why_tests_cant": "All sizes.", "anchors": ["soil/agents/__init__.py:filter_agents"]}
{"id": "C49", "title": "The matrix is the full cartesian product", "statement": "A simulation with a parameter matrix runs exactly once for every combination of one value per parameter and for no other; an empty configuration runs once.", "quantifier": "every matrix", "why_tests_cant": "All matrix shapes.", "anchors": ["soil/simulation.py:Simulation._collect_params"]}
{"id": "C50", "title": "Fixed parameters apply to every matrix combination", "statement": "When both parameters and matrix are given, every combination of the matrix is run with the fixed parameters.", "quantifier": "every parameters/matrix pair", "why_tests_cant": "All inputs.", "anchors": ["soil/simulation.py:Simulation._collect_params"]}
{"id": "C51", "title": "Iteration seeds are distinct and reproducible", "statement": "Different (seed, iteration) pairs get different random seeds, and the seed of an iteration depends on nothing else.", "quantifier": "every seed string and iteration number", "why_tests_cant": "String concatenation collisions over all strings.", "anchors": ["soil/simulation.py:Simulation._get_env"]}
{"id": "C52", "title": "One result per combination and iteration, in order", "statement": "Simulation.run returns one environment for every parameter combination and iteration, in that order (none in a dry run).", "quantifier": "every number of combinations and iterations", "why_tests_cant": "All sizes.", "anchors": ["soil/simulation.py:Simulation.run", "soil/simulation.py:Simulation._run_iters_for_params", "soil/utils.py:run_parallel"]}
{"id": "C53", "title": "Exporter protocol", "statement": "Every exporter gets exactly one sim_start before anything else, one iteration_end per environment in order and right after that environment finished, and one sim_end last.", "quantifier": "every list of exporters, combinations and iterations", "why_tests_cant": "All sizes; ordering.", "anchors": ["soil/simulation.py:Simulation.run"]}
{"id": "C54", "title": "Deferred simulations run the configured combinations once", "statement": "Loading a Python file whose code calls sim.run() yields simulations which, when run, perform exactly the runs the original call would have performed.", "quantifier": "every simulation in the file", "why_tests_cant": "All matrices.", "anchors": ["soil/simulation.py:Simulation.run", "soil/simulation.py:_iter_queued", "soil/simulation.py:iter_from_py"]}
{"id": "C55", "title": "Loading a broken file has no effect on later loads", "statement": "If loading a Python file fails, simulations it queued do not show up when another file is loaded.", "quantifier": "every sequence of loads and failure points", "why_tests_cant": "Crash points.", "anchors": ["soil/simulation.py:iter_from_py", "soil/simulation.py:do_not_run", "soil/simulation.py:_iter_queued"]}
{"id": "C56", "title": "Reporters belong to their parameter set", "statement": "Reporters passed in one parameter combination are used only for the environments of that combination.", "quantifier": "every list of combinations", "why_tests_cant": "Order of combinations.", "anchors": ["soil/simulation.py:Simulation._get_env"]}
{"id": "C57", "title": "One row of model data per step", "statement": "After n steps the collected model data has exactly n+1 rows for every reporter defined before the first step; the last row of `time` is the current time and of `agent_count` the number of living scheduled agents.", "quantifier": "every n, reporters and model", "why_tests_cant": "Unbounded n.", "anchors": ["soil/environment.py:BaseEnvironment.step", "soil/environment.py:BaseEnvironment.__init__", "soil/datacollection.py:SoilCollector"]}
{"id": "C58", "title": "Agent reporters can be limited to a type", "statement": "add_agent_reporter(name, reporter, agent_type) reports reporter(a) for agents of that type and None for the others.", "quantifier": "every reporter, type and agent", "why_tests_cant": "All agents.", "anchors": ["soil/environment.py:BaseEnvironment.add_agent_reporter"]}
{"id": "C59", "title": "flatten/unflatten round trip", "statement": "unflatten_dict(flatten_dict(d)) == d for every nested dictionary with dot-free non-empty string keys and no empty sub-dictionary.", "quantifier": "every nested dictionary", "why_tests_cant": "Unbounded depth.", "anchors": ["soil/utils.py:flatten_dict", "soil/utils.py:unflatten_dict"]}
{"id": "C60", "title": "Source files are registered only while in use", "statement": "Any properly nested use of with_source on different files makes each file's module available inside its block and leaves the registry as it was after it, even if the block raises.", "quantifier": "every nesting of blocks and exceptions", "why_tests_cant": "All nestings.", "anchors": ["soil/serialization.py:with_source", "soil/serialization.py:_add_source_file", "soil/serialization.py:_remove_source_file"]}
{"id": "C61", "title": "Class names round-trip", "statement": "deserialize(name(cls)) is cls for every importable class.", "quantifier": "every class, every set of known modules", "why_tests_cant": "All module contents.", "anchors": ["soil/serialization.py:name", "soil/serialization.py:deserializer", "soil/serialization.py:deserialize"]}
{"id": "C62", "title": "Template expansion covers every combination", "statement": "A template configuration expands to exactly one configuration per (combination of list values, sample), each assigning every variable.", "quantifier": "every set of lists and samples", "why_tests_cant": "All sizes.", "anchors": ["soil/serialization.py:params_for_template", "soil/serialization.py:expand_template"]}
{"id": "C63", "title": "Backups preserve previous results", "statement": "With backup enabled, writing a result file never destroys the previous contents: they are kept under backup/.", "quantifier": "every sequence of writes, file contents and timestamps", "why_tests_cant": "All histories and time coincidences.", "anchors": ["soil/utils.py:try_backup", "soil/utils.py:safe_open", "soil/exporters.py:SQLite.sim_start"]}
{"id": "C64", "title": "No dump means no files", "statement": "With dump=False (or a dry run) no exporter shipped with soil creates or modifies a result file.", "quantifier": "every exporter, iteration and content", "why_tests_cant": "All exporter sequences.", "anchors": ["soil/exporters.py:Exporter.output", "soil/exporters.py:SQLite", "soil/exporters.py:csv", "soil/exporters.py:gexf", "soil/exporters.py:YAML", "soil/utils.py:open_or_reuse"]}
{"id": "C65", "title": "Distribution thresholds partition the unit interval", "statement": "calculate_distribution assigns consecutive, non-overlapping intervals that start at 0, end at 1 and whose lengths are proportional to the weights.", "quantifier": "every list of positive weights", "why_tests_cant": "All weights.", "anchors": ["soil/agents/__init__.py:calculate_distribution"]}
{"id": "C66", "title": "A distribution yields exactly n agents", "statement": "_from_distro returns exactly n agent specifications, and at least floor(n/total)*weight of each kind.", "quantifier": "every n, weights and random draws", "why_tests_cant": "All n and weights.", "anchors": ["soil/agents/__init__.py:_from_distro"]}
{"id": "C67", "title": "--set updates exactly one parameter", "statement": "--set a.b.c=v changes sim.parameters['a']['b']['c'] to v and nothing else.", "quantifier": "every nested parameter dictionary and path", "why_tests_cant": "All trees.", "anchors": ["soil/__init__.py:main"]}
{"id": "C68", "title": "add_agents adds exactly k agents of the given classes", "statement": "add_agents(classes, k, weights) adds exactly k agents with consecutive ids, each of one of the classes, never of a class with weight 0.", "quantifier": "every k, class list, weights and random draws", "why_tests_cant": "Random draws.", "anchors": ["soil/environment.py:BaseEnvironment.add_agents", "soil/environment.py:NetworkEnvironment.add_agents"]}
{"id": "C69", "title": "SISa: discontent spreads through neighbours", "statement": "In the built-in SISaModel, a content or neutral agent with discontent neighbours can become discontent through them.", "quantifier": "every parameter value, neighbourhood and random draw", "why_tests_cant": "A probability-zero event cannot be observed absent by sampling.", "anchors": ["soil/agents/SISaModel.py:SISaModel", "soil/agents/__init__.py:filter_agents"]}
{"id": "C70", "title": "Independent cascade: awareness spreads through neighbours", "statement": "In the built-in IndependentCascadeModel an agent in `imitate` with newly aware neighbours can leave that state through imitation.", "quantifier": "every parameter, neighbourhood and random draw", "why_tests_cant": "Same as above.", "anchors": ["soil/agents/IndependentCascadeModel.py:IndependentCascadeModel"]}
{"id": "C71", "title": "Queries do not change their arguments", "statement": "get_agents(state=d, **criteria) leaves the dictionary d as it was, so a later query with d means the same.", "quantifier": "every dictionary and criteria", "why_tests_cant": "All arguments; the effect shows only in a later call.", "anchors": ["soil/agents/__init__.py:filter_agents"]}
{"id": "C72", "title": "Agent data is kept for every step", "statement": "After n steps of the model the agent data has the records of the initial state and of every one of the n steps.", "quantifier": "every history of steps, including steps after the end of the schedule", "why_tests_cant": "Records are keyed by the number of the step; the overwriting only shows for steps that do not count.", "anchors": ["soil/environment.py:BaseEnvironment.step", "soil/datacollection.py:SoilCollector", "soil/time.py:TimedActivation.step"]}
{"id": "C73", "title": "Expanding a template does not change its configuration", "statement": "expand_template(config) leaves config as it was, so a second expansion uses the same sampler.", "quantifier": "every configuration", "why_tests_cant": "The effect shows only in a later call.", "anchors": ["soil/serialization.py:params_for_template"]}
{"id": "C74", "title": "Results of different iterations do not overwrite each other", "statement": "After a simulation with m combinations of parameters and k iterations, the results of all m*k runs are in the output directory.", "quantifier": "every number of combinations and iterations, and all contents", "why_tests_cant": "All numbers of runs and file contents.", "anchors": ["soil/exporters.py:gexf", "soil/exporters.py:csv", "soil/simulation.py:Simulation.run"]}
{"id": "C75", "title": "Errors while writing a result reach the caller unchanged", "statement": "An exception raised inside `with open_or_reuse(...)` reaches the caller as it is.", "quantifier": "every exception", "why_tests_cant": "All exception types and both modes of opening.", "anchors": ["soil/utils.py:open_or_reuse"]}
{"id": "C76", "title": "Every exporter shipped with soil works", "statement": "No sequence of calls of the shipped exporters raises an exception.", "quantifier": "every sequence of exporter calls and initial disk", "why_tests_cant": "All sequences and initial directories.", "anchors": ["soil/exporters.py:graphdrawing", "soil/exporters.py:SQLite", "soil/exporters.py:default"]}
{"id": "C77", "title": "The state of a kind wins over the default state", "statement": "In agent distributions and fixed agents, the values given for the kind or item win over the default state.", "quantifier": "every distribution, default and random draw", "why_tests_cant": "All dictionaries.", "anchors": ["soil/agents/__init__.py:_from_distro", "soil/agents/__init__.py:_from_fixed"]}
{"id": "C78", "title": "The topology setting of one kind does not affect others", "statement": "Whether an agent built from a distribution goes to the topology depends on its own kind and the defaults only.", "quantifier": "every distribution and shuffling", "why_tests_cant": "Shuffling is random.", "anchors": ["soil/agents/__init__.py:_from_distro"]}
{"id": "C79", "title": "Agents of the Bass model can step", "statement": "The built-in BassModel executes its states when it is stepped.", "quantifier": "every model and keyword arguments", "why_tests_cant": "All arguments.", "anchors": ["soil/agents/BassModel.py:BassModel"]}
{"id": "C80", "title": "Counters count", "statement": "After n steps Ticker, CounterModel and AggregatedCounter have times = initial + n, and neighbours and totals of the last step (CounterModel) or summed over all steps (AggregatedCounter).", "quantifier": "every number of steps and sequence of neighbourhoods and populations", "why_tests_cant": "Unbounded runs.", "anchors": ["soil/agents/CounterModel.py:Ticker", "soil/agents/CounterModel.py:CounterModel", "soil/agents/CounterModel.py:AggregatedCounter"]}
{"id": "C81", "title": "SISa agents have parameters of their own", "statement": "The parameters of SISa agents, drawn from normal distributions, are drawn for every agent anew, around the settings documented for them.", "quantifier": "every seed, mean and deviation", "why_tests_cant": "That two draws are always equal cannot be established by sampling.", "anchors": ["soil/agents/SISaModel.py:SISaModel.__init__"]}
{"id": "C82", "title": "The agents of the scheduler are those added and not removed", "statement": "The scheduler's set of agents contains each agent that was added and not removed since, once, and nothing else; whatever steps, exceptions and additions by other agents happen.", "quantifier": "every history, every behaviour", "why_tests_cant": "Additions and removals happen in the middle of arbitrary agents' steps.", "anchors": ["soil/time.py:TimedActivation.add", "soil/environment.py:BaseEnvironment.agents", "soil/agents/__init__.py:BaseAgent.die"]}
{"id": "C83", "title": "Setting model.running to False ends the run", "statement": "When an agent or the model sets model.running to False, the run returns after that step at the latest, whatever the limits; a run without limits returns only then.", "quantifier": "every model, every limits, every step in which it happens", "why_tests_cant": "Quantifies over the step at which the model is stopped and over all limits.", "anchors": ["soil/simulation.py:Simulation._run_model"]}
{"id": "C84", "title": "A plain step tells the scheduler what its function returned", "statement": "An agent whose step is an ordinary function runs that function once per activation; None means the default delay, a number or Delay that delay, DeadAgent ends the agent, and any other exception or value is an error for the caller.", "quantifier": "every function, world and returned value", "why_tests_cant": "All return values and exceptions.", "anchors": ["soil/agents/__init__.py:decorate_normal_func"]}
{"id": "C85", "title": "A new FSM agent is in the given or the default state", "statement": "FSM(state_id=s) starts in state s, which must be declared; without state_id it starts in the default state of the class; if there is none (and more than one state) the constructor raises.", "quantifier": "every class and state id", "why_tests_cant": "All classes and ids.", "anchors": ["soil/agents/fsm.py:FSM.__init__", "soil/agents/fsm.py:FSM._set_state"]}
{"id": "C86", "title": "add_agent schedules, die unschedules", "statement": "An agent added by the code of a step is alive, one of the scheduler's agents and due at the current time; an agent on which die() is called is dead and not one of the scheduler's agents any more.", "quantifier": "every sequence of operations in a step, every state", "why_tests_cant": "Operations of one step can come in any order and number.", "anchors": ["soil/environment.py:BaseEnvironment.add_agent", "soil/agents/__init__.py:BaseAgent.die"]}
{"id": "C87", "title": "The head of the priority queue is the earliest pending entry", "statement": "Whatever user code does, the first element of PQueueActivation._queue is the entry with the least (when, key), and the heapq operations neither lose nor duplicate entries.", "quantifier": "every host, history of steps, additions, removals and exceptions", "why_tests_cant": "The shape of the heap depends on the whole history.", "anchors": ["soil/time.py:PQueueActivation._schedule", "soil/time.py:PQueueActivation.step"]}
{"id": "C88", "title": "Without shuffling PQueueActivation runs the agents of an instant in order of id", "statement": "With shuffle=False, the agents run by one step are run in the order of their unique ids.", "quantifier": "every population, history, policy", "why_tests_cant": "All populations and histories.", "anchors": ["soil/time.py:PQueueActivation._schedule", "soil/time.py:PQueueActivation.step"]}
{"id": "C89", "title": "add_agent adds exactly one agent of the class, or none if its constructor raises", "statement": "Every addition schedules exactly the agents it was asked to create, after those already scheduled and of the given classes; if the constructor raises nothing is scheduled, and a class that does not accept node_id still yields exactly one agent.", "quantifier": "every history of additions of every sort", "why_tests_cant": "All histories, with failing constructors.", "anchors": ["soil/environment.py:BaseEnvironment.add_agent", "soil/environment.py:NetworkEnvironment.add_agent", "soil/environment.py:NetworkEnvironment.add_node"]}
{"id": "C90", "title": "received and ask wait exactly as long as asked", "statement": "As long as nothing arrives, received(timeout=t) and ask(timeout=t) wait while less than t has gone by since the call, and raise TimedOut at the first poll at which t or more has; received(expiration=e) raises at the first poll at or after time e.", "quantifier": "every time of the call, timeout, expiration, delay between polls and number of polls", "why_tests_cant": "All times and delays; the waiting code is polled arbitrarily often.", "anchors": ["soil/agents/evented.py:EventedAgent.received", "soil/agents/evented.py:EventedAgent.ask"]}
{"id": "C91", "title": "Every parameter of a combination reaches the model", "statement": "For every combination of parameters, the model class is called with every parameter of the combination and with no other.", "quantifier": "every simulation, combination and iteration", "why_tests_cant": "Parameter names are arbitrary; tests use a few harmless ones.", "anchors": ["soil/simulation.py:Simulation._run_iters_for_params", "soil/simulation.py:Simulation._run_model", "soil/simulation.py:Simulation._get_env", "soil/utils.py:run_parallel"]}
{"id": "C92", "title": "The number of processes does not change the outcome", "statement": "Whatever the number of processes, the results of the iterations are the same up to order, and a failing iteration reaches the caller as an exception.", "quantifier": "every function, list of iterations, number of processes, order of arrival", "why_tests_cant": "All failing patterns and schedules of a pool.", "anchors": ["soil/utils.py:run_parallel"]}
{"id": "C93", "title": "num_processes is respected", "statement": "A simulation with num_processes=n>1 uses a pool of n processes, and with n<1 one of all processors.", "quantifier": "every number of processes and of processors, with and without debugging", "why_tests_cant": "All numbers; tests run with one process.", "anchors": ["soil/utils.py:run_parallel", "soil/simulation.py:Simulation._run_iters_for_params"]}
{"id": "C94", "title": "Running a Simulation object again gives the same environments", "statement": "A second run of the same Simulation object builds the same environments with the same seeds, parameters and reporters as the first.", "quantifier": "every simulation, builder and list of combinations", "why_tests_cant": "Requires reasoning about state left behind in the object, for all combinations.", "anchors": ["soil/simulation.py:Simulation._get_env", "soil/simulation.py:Simulation.run"]}
{"id": "C95", "title": "agent_df labels the data of agents with the time of collection", "statement": "The table returned by agent_df has exactly the rows collected, each labelled with the time at which it was collected.", "quantifier": "every sequence of collections, population and reporters", "why_tests_cant": "Depends on the whole history of collections, with agents created late or in between.", "anchors": ["soil/environment.py:BaseEnvironment.agent_df"]}
{"id": "C96", "title": "Explicit arguments win over the file, and the rest comes from the file", "statement": "Every simulation loaded from a file has the fields given explicitly, and otherwise those of the file (or the folder of the file and the defaults); there is exactly one for each simulation, deferred run or configuration in the file, in order.", "quantifier": "every Python file and configuration file, arguments, state of the interpreter", "why_tests_cant": "Files and arguments are arbitrary, in any combination.", "anchors": ["soil/simulation.py:iter_from_py", "soil/simulation.py:iter_from_config"]}
{"id": "C97", "title": "dir_path defaults to the folder of the configuration", "statement": "A simulation whose configuration does not give dir_path looks for files in the folder of the configuration file, or in the working directory if the configuration is a dictionary.", "quantifier": "every configuration and working directory", "why_tests_cant": "Tests pass dir_path or use absolute paths.", "anchors": ["soil/simulation.py:iter_from_config", "soil/serialization.py:load_config"]}
{"id": "C98", "title": "Loading leaves the interpreter as it was", "statement": "However loading files ends, runs are no longer deferred, and sys.path and sys.modules are as before.", "quantifier": "every list of files, with and without errors", "why_tests_cant": "Requires considering every way in which loading can fail.", "anchors": ["soil/simulation.py:iter_from_py", "soil/simulation.py:iter_from_file", "soil/simulation.py:do_not_run", "soil/serialization.py:load_file"]}
{"id": "C99", "title": "Files that cannot be loaded are reported", "statement": "If a file does not exist or raises an exception, loading it raises, with the exception of the file; from_config returns a simulation exactly if there is exactly one.", "quantifier": "every file, world of files and state of the interpreter", "why_tests_cant": "All ways of failing.", "anchors": ["soil/simulation.py:iter_from_file", "soil/simulation.py:from_config", "soil/serialization.py:load_files"]}
{"id": "C100", "title": "run_from_file runs the simulations of the files", "statement": "run_from_file runs every simulation of the files.", "quantifier": "every list of simulations", "why_tests_cant": "No test calls it.", "anchors": ["soil/simulation.py:run_from_file"]}
{"id": "C101", "title": "Settings not mentioned on the command line keep their values", "statement": "Running a simulation from the command line changes only the settings that are given on the command line or to main.", "quantifier": "every set of options, arguments of main and simulation", "why_tests_cant": "All combinations of options and settings.", "anchors": ["soil/__init__.py:main"]}
{"id": "C102", "title": "Options given on the command line take effect", "statement": "Every option given on the command line determines the corresponding setting of the simulation.", "quantifier": "every set of options, arguments of main and simulation", "why_tests_cant": "All combinations of options.", "anchors": ["soil/__init__.py:main"]}
{"id": "C103", "title": "Each exporter asked for is used once", "statement": "The exporters of a run from the command line are those of the caller followed by those asked for, each once, and the list of the caller is not changed.", "quantifier": "every list of exporters and options", "why_tests_cant": "All combinations of exporter options.", "anchors": ["soil/__init__.py:main"]}
{"id": "C104", "title": "Unflattening loses no value", "statement": "When dotted keys are turned into a nested dictionary without an error, every value can afterwards be found by following the parts of its key; keys that contradict each other (one names a value, the other something below it) are reported as an error and never make a value disappear.", "quantifier": "all dictionaries with string keys and values other than dictionaries, in every order of the keys", "why_tests_cant": "Depends on the order of the keys and on keys being prefixes of each other, for any number and depth of keys.", "anchors": ["soil/utils.py: unflatten_dict"]}
{"id": "C105", "title": "Looking up one agent", "statement": "environment.agent(...) returns the first agent, in scheduling order, of those that get_agents(...) returns for the same query, it satisfies all the criteria, and it raises StopIteration if and only if there is none; count_agents(...) is the number of agents that get_agents(...) returns.", "quantifier": "all environments and all queries (ids, classes, states, neighbours, attributes)", "why_tests_cant": "Quantifies over all environments and queries; the first agent need not be one of those a test looks at.", "anchors": ["soil/environment.py: agent", "soil/environment.py: count_agents", "soil/agents/__init__.py: AgentView.one"]}
{"id": "C106", "title": "The agents of an environment are a mapping from ids", "statement": "environment.get_agents is a mapping from unique ids to agents: every agent can be looked up by its id, an id is in the mapping if and only if some agent has it, and iterating over it gives as many elements as its length says.", "quantifier": "all environments and all ids", "why_tests_cant": "Quantifies over all collections of agents, while tests look up few ids.", "anchors": ["soil/agents/__init__.py: AgentView.__getitem__", "soil/agents/__init__.py: AgentView.__contains__", "soil/agents/__init__.py: AgentView.__iter__", "soil/agents/__init__.py: AgentView.__len__"]}
{"id": "C107", "title": "The network of an environment is the one asked for", "statement": "The network of a new environment is the graph object given, or the contents of the file given (a relative path is looked up in the directory of the environment, the extension selects the reader), or what the generator returns when called once with exactly the parameters given (plus the random numbers of the model if it accepts a seed); a topology wins over a path and a path over a generator; unknown formats and parameters without a generator raise.", "quantifier": "all graphs, paths, extensions, directories, generators and parameters", "why_tests_cant": "Depends on every combination of sources and on the names of the parameters; tests cover a few sources one at a time.", "anchors": ["soil/environment.py: NetworkEnvironment.__init__", "soil/environment.py: create_network", "soil/network.py: from_topology", "soil/network.py: from_params"]}
{"id": "C108", "title": "A new environment is consistent", "statement": "When the constructor of a network environment returns, every scheduled agent with a node is the agent of that node; with agent_class and a new graph with at least one node the constructor does return, with exactly one agent for each node, all of them scheduled and the graph otherwise unchanged.", "quantifier": "all graphs, classes of agents, random draws and agents created by the constructor", "why_tests_cant": "Quantifies over all graphs and over all agents, and over the random numbers that choose the classes.", "anchors": ["soil/environment.py: NetworkEnvironment.__init__", "soil/environment.py: _check_agent_nodes", "soil/environment.py: populate_network"]}
{"id": "C109", "title": "Iterations do not influence each other through the network", "statement": "Each iteration of a simulation starts from the network that was asked for: what agents did to the network in an earlier iteration makes no difference to the agents and the network of later ones.", "quantifier": "all networks, agent classes, numbers of iterations and histories of the network", "why_tests_cant": "Quantifies over all histories of all earlier iterations; tests run few iterations and do not compare networks.", "anchors": ["soil/simulation.py: _run_iters_for_params", "soil/simulation.py: _get_env", "soil/environment.py: NetworkEnvironment.__init__", "soil/network.py: from_topology"]}
{"id": "C110", "title": "Topologies can say which agent is on a node", "statement": "If the nodes of a topology have attributes agent_id, the constructor links each of them with the agent with that id.", "quantifier": "all graphs with attributes agent_id", "why_tests_cant": "Quantifies over all graphs and all assignments of agents to nodes; no test has such a topology.", "anchors": ["soil/environment.py: _check_agent_nodes"]}
{"id": "C111", "title": "Marked members are reported", "statement": "A property or method of an environment class marked with @report has one row per collection, which is its value (for a method, what it returns) in the state at that time; members that are not marked are not reported, and reporters given under other names are not affected.", "quantifier": "all classes, members, reporters, numbers of steps and step functions", "why_tests_cant": "Quantifies over all classes, states and numbers of steps; no test marks a method.", "anchors": ["soil/decorators.py: report", "soil/environment.py: BaseEnvironment.__new__"]}
{"id": "C112", "title": "Logging does not change what a simulation does", "statement": "Code that logs messages does the same at every log level: the steps of an environment and the statements after a call of log have the same outcome whether or not the logger is enabled.", "quantifier": "all levels, messages with and without keyword arguments, reporters and step functions", "why_tests_cant": "Tests run at one level; the property compares all levels for all programs.", "anchors": ["soil/environment.py: BaseEnvironment.step", "soil/environment.py: BaseEnvironment.log", "soil/agents/__init__.py: BaseAgent.log"]}
{"id": "C113", "title": "Agents from dictionaries", "statement": "BaseAgent.from_dict makes an agent by calling the class with exactly the entries of the dictionary that the class accepts; the other entries are reported and left out.", "quantifier": "all signatures and dictionaries", "why_tests_cant": "Quantifies over all dictionaries and constructors.", "anchors": ["soil/agents/__init__.py: BaseAgent.from_dict"]}
{"id": "C114", "title": "Equality of agents", "statement": "Equality of agents is an equivalence relation, equal agents have equal hashes, and different agents (different ids or different environments) are not equal.", "quantifier": "all agents with all attributes", "why_tests_cant": "Quantifies over all pairs of agents with all attributes; tests compare few agents of one environment.", "anchors": ["soil/agents/__init__.py: BaseAgent.__hash__", "soil/agents/__init__.py: BaseAgent.items", "soil/agents/__init__.py: BaseAgent.keys"]}
{"id": "C115", "title": "Parameters become attributes of the environment", "statement": "After the construction of an environment every parameter other than its named arguments is an attribute with the given value, the arguments about the network are recorded, and no other attribute is affected.", "quantifier": "all parameters and both classes of environments", "why_tests_cant": "Quantifies over all sets of parameters and names.", "anchors": ["soil/environment.py: BaseEnvironment.__init__", "soil/environment.py: NetworkEnvironment.__init__"]}
{"id": "C116", "title": "Log level of an agent class", "statement": "If a class of agents sets level, the loggers of its agents have that level.", "quantifier": "all class bodies and bases", "why_tests_cant": "Quantifies over all classes; no test looks at the level of a logger.", "anchors": ["soil/agents/__init__.py: BaseAgent.__init__", "soil/agents/__init__.py: MetaAgent.__new__"]}
{"id": "C117", "title": "The Fibonacci agent runs at Fibonacci numbers", "statement": "The agent of the custom timeouts example that is documented to execute only at Fibonacci times, added at time 0, acts at the times 0, 1, 2, 3, 5, 8, ... exactly: every time it acts is 0 or a Fibonacci number, and it acts at every Fibonacci number that the simulation passes.", "quantifier": "all environments, other agents (as long as they leave it alone), intervals, shufflings, numbers of steps and events", "why_tests_cant": "The sequence is infinite and the other agents are arbitrary; the example is not tested at all.", "anchors": ["examples/custom_timeouts/custom_timeouts_sim.py: Fibonacci", "soil/time.py: TimedActivation.step", "soil/agents/fsm.py: State.step"]}
{"id": "C118", "title": "The odd agent runs at odd times", "statement": "The agent of the custom timeouts example documented to execute only at odd times acts only at odd times, and at each of them.", "quantifier": "all environments, other agents (as long as they leave it alone), intervals, shufflings, numbers of steps and events", "why_tests_cant": "The sequence is infinite and the other agents are arbitrary; the example is not tested at all.", "anchors": ["examples/custom_timeouts/custom_timeouts_sim.py: Odds", "soil/time.py: TimedActivation.step"]}
{"id": "C119", "title": "Pings and pongs", "statement": "The agent of the random delays example sends one ping, then pongs max_pongs times (once at least), then dies and never acts again, whatever delays are drawn.", "quantifier": "all environments, other agents, delays drawn, values of max_pongs and numbers of steps", "why_tests_cant": "Quantifies over all random delays and all numbers of pongs.", "anchors": ["examples/random_delays/random_delays_sim.py: MyAgent", "soil/agents/fsm.py: FSM.step"]}
{"id": "C120", "title": "Pubs are never overcrowded", "statement": "The occupancy of a pub never exceeds its capacity.", "quantifier": "all pubs, capacities, patrons, networks, schedules and random choices", "why_tests_cant": "Quantifies over all runs of the pub crawl; no test checks the occupancy.", "anchors": ["examples/pubcrawl/pubcrawl_sim.py: CityPubs.enter", "examples/pubcrawl/pubcrawl_sim.py: Patron.looking_for_pub"]}
{"id": "C121", "title": "Occupancy counts the patrons inside", "statement": "The occupancy of a pub is the number of patrons that are inside.", "quantifier": "all pubs, capacities, patrons, networks, schedules and random choices", "why_tests_cant": "Quantifies over all runs; the numbers only disagree after friendships were made.", "anchors": ["examples/pubcrawl/pubcrawl_sim.py: CityPubs.enter", "examples/pubcrawl/pubcrawl_sim.py: Patron.befriend", "examples/pubcrawl/pubcrawl_sim.py: CityPubs.exit"]}
{"id": "C122", "title": "Befriending connects two patrons", "statement": "When a patron befriends another one, the two become neighbors in the network; a patron only goes on to look for a pub after somebody accepted.", "quantifier": "all patrons, degrees of openness, networks and random numbers", "why_tests_cant": "Quantifies over all pairs and networks; there is no test.", "anchors": ["examples/pubcrawl/pubcrawl_sim.py: Patron.befriend", "soil/agents/network_agents.py: NetworkAgent.add_edge"]}
{"id": "C123", "title": "The life of a patron", "statement": "Patrons go through the states in order (looking for friends, looking for a pub, sober, drunk, at home) and never back; they drink at most max_pints + 1 pints; whoever is drunk in a pub has had exactly that many; whoever is at home was drunk and kicked out, or has had nothing.", "quantifier": "all pubs, capacities, patrons, networks, schedules and random choices", "why_tests_cant": "Quantifies over all runs and all pairs of moments of them.", "anchors": ["examples/pubcrawl/pubcrawl_sim.py: Patron", "examples/pubcrawl/pubcrawl_sim.py: Police.patrol"]}
{"id": "C124", "title": "Who goes home leaves the pub", "statement": "When a patron is taken home, the pub has one patron less and others can enter.", "quantifier": "all pubs, capacities, patrons, networks, schedules and random choices", "why_tests_cant": "Quantifies over all runs; visible only when pubs become full.", "anchors": ["examples/pubcrawl/pubcrawl_sim.py: Patron.at_home", "examples/pubcrawl/pubcrawl_sim.py: CityPubs.exit", "examples/pubcrawl/pubcrawl_sim.py: Police.patrol"]}
{"id": "C125", "title": "Money is conserved", "statement": "In the wealth models the total wealth never changes and nobody has less than nothing; money is only given to agents in the same cell (to friends, for social agents); nobody leaves the grid.", "quantifier": "all grids, networks, numbers of agents, schedules and random choices", "why_tests_cant": "Quantifies over all runs; there is no test.", "anchors": ["examples/mesa/wealth.py: MoneyAgent", "examples/mesa/social_wealth.py: SocialMoneyAgent"]}
{"id": "C126", "title": "The Gini coefficient", "statement": "The reported inequality is the Gini coefficient, half of the relative mean absolute difference of all pairs; for wealths that are not negative it is between 0 and 1 - 1/N and 0 exactly if all have the same; it depends neither on the order of agents nor on the unit.", "quantifier": "all lists of wealths, all runs of the wealth models", "why_tests_cant": "An equality of two formulas for all lists of all lengths.", "anchors": ["examples/mesa/wealth.py: compute_gini", "examples/mesa/social_wealth.py: compute_gini", "examples/markov_chains/markov_sim.py: gini"]}
{"id": "C127", "title": "The virus model is safe", "statement": "In the virus model the three reported numbers always add up to the number of agents; resistant agents stay resistant; the virus spreads only along edges, from infected to susceptible agents; without recovery infected agents stay infected, and without spreading nobody else gets infected.", "quantifier": "all networks, initial statuses, parameters, schedules and random numbers", "why_tests_cant": "Quantifies over all runs; there is no test.", "anchors": ["benchmarks/virusonnetwork/soil_step.py: VirusAgent", "benchmarks/virusonnetwork/soil_states.py: VirusAgent"]}
{"id": "C128", "title": "The versions of the virus model agree", "statement": "The versions of the virus model that the benchmark compares do the same for the same schedule and random numbers.", "quantifier": "all networks, initial statuses, parameters, schedules and random numbers", "why_tests_cant": "Relates whole runs of two programs.", "anchors": ["benchmarks/virusonnetwork/soil_step.py: VirusAgent", "benchmarks/virusonnetwork/soil_states.py: VirusAgent", "benchmarks/virusonnetwork/mesa_basic.py: VirusAgent"]}
{"id": "C129", "title": "Litters have eight to eleven babies", "statement": "Every pregnancy is of at least 8 and at most 11 babies.", "quantifier": "all parameters, schedules and random numbers in [0, 1)", "why_tests_cant": "Quantifies over all random numbers and all runs.", "anchors": ["examples/rabbits/rabbits_basic_sim.py: Female.impregnate"]}
{"id": "C130", "title": "Births", "statement": "When the time of a mother has come, all the babies she carries are added with nodes linked to her (and to the father if he is alive), they are counted as offspring, and she is fertile again.", "quantifier": "all runs before it, all numbers of babies and choices", "why_tests_cant": "Quantifies over all runs; fails only when the father is alive (or dead, in the improved version).", "anchors": ["examples/rabbits/rabbits_basic_sim.py: Female.pregnant", "examples/rabbits/rabbit_improved_sim.py: Female.pregnant"]}
{"id": "C131", "title": "One litter per mating", "statement": "No mother has more litters than matings.", "quantifier": "all parameters, schedules and random numbers", "why_tests_cant": "Quantifies over all runs; needs to relate events far apart.", "anchors": ["examples/rabbits/rabbits_basic_sim.py: Female", "examples/rabbits/rabbit_improved_sim.py: Female"]}
{"id": "C132", "title": "Rabbits do not outlive their life expectancy", "statement": "No rabbit gets older than one more than the life expectancy (or the age of maturity, if that is more).", "quantifier": "all parameters, schedules and random numbers", "why_tests_cant": "Quantifies over all runs.", "anchors": ["examples/rabbits/rabbits_basic_sim.py: Rabbit", "examples/rabbits/rabbits_basic_sim.py: Male.fertile", "examples/rabbits/rabbits_basic_sim.py: Female.pregnant"]}
{"id": "C133", "title": "The network contains the living rabbits", "statement": "At any time the nodes of the network are those of the living rabbits, none twice, and every edge joins two living rabbits.", "quantifier": "all parameters, schedules and random numbers", "why_tests_cant": "Quantifies over all runs, with births, deaths and accidents in any order.", "anchors": ["examples/rabbits/rabbits_basic_sim.py: RabbitEnv", "soil/agents/network_agents.py: NetworkAgent.die", "soil/agents/network_agents.py: NetworkAgent.add_edge"]}
{"id": "C134", "title": "Accidents", "statement": "An accident kills exactly the living rabbits, except those on the way to death, whose random number is below prob_death * floor(log10(rabbits)); with fewer than ten rabbits nothing happens; nobody is added.", "quantifier": "all populations and random numbers", "why_tests_cant": "Quantifies over all populations; the default probability makes accidents unobservable in tests.", "anchors": ["examples/rabbits/rabbits_basic_sim.py: RandomAccident.step"]}
{"id": "C135", "title": "The custom generator makes simple graphs", "statement": "mygenerator(n, n_edges) returns a graph with the nodes 0 to n-1 and exactly n_edges edges, none of which is a loop; every such graph can be the result.", "quantifier": "all numbers of nodes and edges, all random numbers", "why_tests_cant": "Quantifies over all random numbers; coincidences are rare in tests.", "anchors": ["examples/custom_generator/generator_sim.py: mygenerator"]}
{"id": "C136", "title": "News spread along edges", "statement": "A viewer is only infected by its TV set or by an infected neighbour; in a group without TV sets into which no edge leads, nobody is ever infected; dumb and herd viewers stay infected.", "quantifier": "all networks, populations, schedules and random numbers", "why_tests_cant": "Quantifies over all runs on all networks.", "anchors": ["examples/newsspread/newsspread_sim.py: DumbViewer", "examples/newsspread/newsspread_sim.py: HerdViewer"]}
{"id": "C137", "title": "Wise viewers can be cured", "statement": "An infected wise viewer can be activated without an error and may be cured.", "quantifier": "all networks, populations, schedules and random numbers", "why_tests_cant": "The attribute is missing only in runs in which a wise viewer is infected.", "anchors": ["examples/newsspread/newsspread_sim.py: WiseViewer"]}
{"id": "C138", "title": "The default probabilities of the news example can be used", "statement": "Without giving probabilities, activations of viewers do not raise because of the type of a probability.", "quantifier": "all networks and populations", "why_tests_cant": "Needs runs with the defaults in which the probability is used.", "anchors": ["examples/newsspread/newsspread_sim.py: NewsSpread"]}
{"id": "C139", "title": "Geographical search finds exactly what is near", "statement": "geo_search returns the nodes of matching agents with a position at most radius away, without the own node unless asked for; finding each other is symmetric, and a larger radius finds no less.", "quantifier": "all networks, positions, agents, radii", "why_tests_cant": "Quantifies over all networks and positions, and over agents without nodes or positions.", "anchors": ["soil/agents/geo.py: Geo.geo_search", "soil/agents/network_agents.py: NetworkAgent.subgraph"]}
{"id": "C140", "title": "Beliefs and vulnerabilities are numbers between 0 and 1", "statement": "If the settings are probabilities, every mean_belief and vulnerability stays between 0 and 1.", "quantifier": "all networks, populations, schedules, random numbers and settings", "why_tests_cant": "Quantifies over all runs and settings.", "anchors": ["examples/terrorism/TerroristNetworkModel_sim.py: TerroristSpreadModel", "examples/terrorism/TerroristNetworkModel_sim.py: TrainingAreaModel", "examples/terrorism/TerroristNetworkModel_sim.py: HavenModel"]}
{"id": "C141", "title": "No spontaneous radicalisation", "statement": "Among civilians whose beliefs are all below the threshold nobody ever becomes a terrorist; terrorists and leaders never become civilians again and their beliefs never decrease.", "quantifier": "all networks, populations, schedules, random numbers and settings", "why_tests_cant": "Quantifies over all runs and settings.", "anchors": ["examples/terrorism/TerroristNetworkModel_sim.py: TerroristSpreadModel.civilian", "examples/terrorism/TerroristNetworkModel_sim.py: TerroristSpreadModel.terrorist", "examples/terrorism/TerroristNetworkModel_sim.py: TerroristSpreadModel.leader"]}
{"id": "C142", "title": "Belief changes only by interaction", "statement": "The belief of a civilian that interacts with nobody does not change.", "quantifier": "all networks, populations, random numbers and settings", "why_tests_cant": "Quantifies over all random numbers.", "anchors": ["examples/terrorism/TerroristNetworkModel_sim.py: TerroristSpreadModel.civilian"]}
{"id": "C143", "title": "Terrorists are influenced by their group", "statement": "The new belief of a terrorist depends on the beliefs of the neighbours in its group.", "quantifier": "all networks, populations and settings", "why_tests_cant": "Independence of a result from an input is not observable in single runs.", "anchors": ["examples/terrorism/TerroristNetworkModel_sim.py: TerroristSpreadModel.terrorist"]}
{"id": "C144", "title": "Terrorists of the network model can act", "statement": "Persons of the class TerroristNetworkModel in the states terrorist and leader behave as those of TerroristSpreadModel, after updating their relationships.", "quantifier": "all networks, populations, schedules and random numbers", "why_tests_cant": "Quantifies over all runs with a terrorist or leader.", "anchors": ["examples/terrorism/TerroristNetworkModel_sim.py: TerroristNetworkModel.terrorist", "examples/terrorism/TerroristNetworkModel_sim.py: TerroristNetworkModel.leader", "soil/agents/fsm.py: State.__call__"]}
{"id": "C145", "title": "Centralities are those of the current network", "statement": "degree and betweenness return the centralities in the network at the first call in the current step.", "quantifier": "all networks and sequences of calls", "why_tests_cant": "Quantifies over all interleavings of calls with changes of the network.", "anchors": ["examples/terrorism/TerroristNetworkModel_sim.py: TerroristSpreadModel.degree", "examples/terrorism/TerroristNetworkModel_sim.py: TerroristSpreadModel.betweenness"]}
{"id": "C146", "title": "Edge occupation counts the drivers on the way", "statement": "The occupation of an edge is the number of drivers that have started along it and have not arrived; it is never negative.", "quantifier": "all street networks, fleets, schedules and random numbers", "why_tests_cant": "Quantifies over all interleavings of the drivers.", "anchors": ["examples/markov_chains/markov_sim.py: Roamer.move_to", "examples/markov_chains/markov_sim.py: CityGrid.edge_occupation"]}
{"id": "C147", "title": "Node occupation counts the drivers at an intersection", "statement": "The list of agents of an intersection consists of the drivers that are there, each once, and node occupations sum to the number of drivers.", "quantifier": "all street networks, fleets, schedules and random numbers", "why_tests_cant": "Quantifies over all interleavings of the drivers.", "anchors": ["examples/markov_chains/markov_sim.py: CityGrid.node_occupation", "examples/markov_chains/markov_sim.py: Roamer.move_to"]}
{"id": "C148", "title": "Drivers move along streets and take the travel time", "statement": "A driver moves only in its own activations and only to a neighbouring intersection; with gradual_move it waits for the travel time of the fastest edge first.", "quantifier": "all street networks, fleets, schedules and random numbers", "why_tests_cant": "Quantifies over all runs and networks.", "anchors": ["examples/markov_chains/markov_sim.py: Roamer.move_to", "examples/markov_chains/markov_sim.py: Roamer.choose_next", "examples/markov_chains/markov_sim.py: CityGrid.travel_time"]}
{"id": "C149", "title": "Lazy drivers prefer near intersections", "statement": "A lazy driver chooses a neighbouring intersection with a probability inversely proportional to its travel time.", "quantifier": "all street networks, positions and random numbers", "why_tests_cant": "A statement about the measure of all draws, not about single runs.", "anchors": ["examples/markov_chains/markov_sim.py: LazyRoamer.choose_next"]}
{"id": "C150", "title": "Square cities can be simulated", "statement": "SquareCityEnv can be constructed for every side, and its drivers can act.", "quantifier": "all sides and fleets", "why_tests_cant": "Quantifies over all parameters.", "anchors": ["examples/markov_chains/markov_sim.py: SquareCityEnv.__init__", "examples/markov_chains/markov_sim.py: CityGrid.travel_time"]}
{"id": "C151", "title": "Drivers can be sent to a position", "statement": "move_to(pos) brings the driver to pos and keeps the occupations right.", "quantifier": "all street networks, reachable states and positions", "why_tests_cant": "Quantifies over all reachable states.", "anchors": ["examples/markov_chains/markov_sim.py: Roamer.move_to"]}
{"id": "C152", "title": "A journey has one driver", "statement": "A journey is accepted by at most one driver, and its driver, origin, destination and tip never change afterwards; no two drivers have the same journey at the same time.", "quantifier": "all grids, numbers of drivers and passengers, schedules and random results", "why_tests_cant": "Quantifies over all interleavings of drivers and passengers.", "anchors": ["examples/cars/cars_sim.py: Driver.on_receive", "examples/cars/cars_sim.py: Driver.wandering", "examples/cars/cars_sim.py: Journey"]}
{"id": "C153", "title": "Earnings are the tips of the completed journeys", "statement": "Every driver has earned the tips of its completed journeys, each once; total_earnings is the sum of what the drivers have earned, and of all tips when everybody has stopped.", "quantifier": "all grids, numbers of drivers and passengers, schedules and random results", "why_tests_cant": "Quantifies over all interleavings of drivers and passengers.", "anchors": ["examples/cars/cars_sim.py: Driver.driving", "examples/cars/cars_sim.py: City.init"]}
{"id": "C154", "title": "The confirmation of a journey never times out", "statement": "A driver that asks its passenger to confirm the journey gets the answer before the question expires.", "quantifier": "all grids, numbers of drivers and passengers, schedules and random results", "why_tests_cant": "A bound on times over all interleavings.", "anchors": ["examples/cars/cars_sim.py: Driver.wandering", "examples/cars/cars_sim.py: Passenger.asking", "soil/agents/evented.py: EventedAgent.ask", "soil/agents/evented.py: EventedAgent.received"]}
{"id": "C155", "title": "Drivers take a shortest way", "statement": "Each step of a driver goes one cell closer to its target; a driver on its way delivers its passenger after exactly as many time units as the number of cells to the origin and from there to the destination.", "quantifier": "all grids, numbers of drivers and passengers, schedules and random results", "why_tests_cant": "Quantifies over all continuations of all runs.", "anchors": ["examples/cars/cars_sim.py: Driver.move_towards", "examples/cars/cars_sim.py: Driver.driving"]}
{"id": "C156", "title": "Passengers move with their driver", "statement": "A passenger is at the origin of its journey until its driver has picked it up, then where its driver is, and at its destination when it has been delivered.", "quantifier": "all grids, numbers of drivers and passengers, schedules and random results", "why_tests_cant": "Quantifies over all interleavings of drivers and passengers.", "anchors": ["examples/cars/cars_sim.py: Driver.move_towards", "examples/cars/cars_sim.py: Passenger.driving_home"]}
{"id": "C157", "title": "Destinations are in the grid", "statement": "Passengers choose destinations inside of the grid, drivers never leave it, and no exception escapes.", "quantifier": "all grids, numbers of drivers and passengers, schedules and random results", "why_tests_cant": "Tests use the default square grid.", "anchors": ["examples/cars/cars_sim.py: Passenger.asking", "examples/cars/cars_sim.py: Driver.move_towards", "examples/cars/cars_sim.py: Driver.wandering"]}
{"id": "C158", "title": "The grid knows where agents are", "statement": "The grid has each driver and passenger in the cell given by its position.", "quantifier": "all grids, numbers of drivers and passengers, schedules and random results", "why_tests_cant": "Quantifies over all interleavings of drivers and passengers.", "anchors": ["examples/cars/cars_sim.py: Driver.move_towards", "examples/cars/cars_sim.py: City.init"]}
{"id": "C159", "title": "Drivers stop when no passengers are left", "statement": "A driver stops only when all passengers have stopped; when they have, it stops the next time it looks, or when it is paid.", "quantifier": "all grids, numbers of drivers and passengers, schedules and random results", "why_tests_cant": "Quantifies over all interleavings of drivers and passengers.", "anchors": ["examples/cars/cars_sim.py: Driver.check_passengers", "examples/cars/cars_sim.py: Driver.wandering", "examples/cars/cars_sim.py: Driver.driving"]}
{"id": "C160", "title": "Agents start in different cells", "statement": "Drivers and passengers start in pairwise different cells of the grid other than (0, 0), and the city can be made exactly if there are fewer agents than cells.", "quantifier": "all grids, numbers of agents and random results", "why_tests_cant": "Quantifies over all sizes and draws.", "anchors": ["examples/cars/cars_sim.py: City.init"]}
{"id": "C161", "title": "Delivered passengers stop in time", "statement": "A passenger that has been delivered stops within 60 time units, at its destination.", "quantifier": "all grids, numbers of drivers and passengers, schedules and random results", "why_tests_cant": "A bound on times over all continuations of all runs.", "anchors": ["examples/cars/cars_sim.py: Passenger.driving_home", "soil/agents/evented.py: EventedAgent.received"]}
{"id": "C162", "title": "The benchmark of idle agents counts every activation", "statement": "After max_steps steps every agent of the noop benchmark has been called exactly max_steps times, so that num_calls adds up to agents times steps, with methods, generators and coroutines, with both schedulers and with the mesa model; without agents the run raises.", "quantifier": "all numbers of agents and steps, positive intervals, shuffles and random keys", "why_tests_cant": "Quantifies over all sizes and random orders.", "anchors": ["benchmarks/noop/_config.py: run_sim", "benchmarks/noop/soil_gens.py: NoopAgent.step", "benchmarks/noop/soil_async_pqueue.py: NoopEnvironment.init", "benchmarks/noop/mesa_simulation.py: NoopModel.step"]}
{"id": "C163", "title": "break_state stops before the state", "statement": "After break_state (or continue_state) for a state of a class, the debugger stops whenever one of the given agents enters that state, and nowhere else.", "quantifier": "all programs, frames, breakpoints, classes, states and agents", "why_tests_cant": "Quantifies over all programs and debugger sessions.", "anchors": ["soil/debugging.py: Debug.do_break_state", "soil/debugging.py: Debug.do_continue_state"]}
{"id": "C164", "title": "break_step stops before the next step", "statement": "After break_step the debugger stops at the next call of step of the current model.", "quantifier": "all frames, debugger states, models and numbers of steps", "why_tests_cant": "Quantifies over all sessions and later calls.", "anchors": ["soil/debugging.py: Debug.do_break_step", "soil/simulation.py: Simulation._run_model"]}
{"id": "C165", "title": "The debugger shows the current agent and model", "statement": "soil_agents, soil_list and soil_agent are about the agent and the model of the current frame, and say so if there is none; soil_agent shows the public attributes that begin with one of the arguments, each once.", "quantifier": "all frames, earlier commands and agents", "why_tests_cant": "Quantifies over all sequences of frames.", "anchors": ["soil/debugging.py: wrapcmd", "soil/debugging.py: Debug.do_soil_agent", "soil/debugging.py: Debug.do_soil_agents"]}
{"id": "C166", "title": "break_state_self is about the current agent only", "statement": "In a method of an agent break_state_self makes the debugger stop when this agent enters the state, and no other agent.", "quantifier": "all programs, frames, breakpoints, agents and states", "why_tests_cant": "Quantifies over all programs and frames.", "anchors": ["soil/debugging.py: Debug.do_break_state_self"]}
{"id": "C167", "title": "A simulation is found by its name", "statement": "read_sql(name=...), called in the directory in which the simulation was run, opens the file that the SQLite exporter has written for the simulation of that name.", "quantifier": "all directories, names, groups and output directories", "why_tests_cant": "Quantifies over all paths.", "anchors": ["soil/analysis.py: read_sql", "soil/exporters.py: Exporter.__init__", "soil/exporters.py: SQLite.sim_start"]}
{"id": "C168", "title": "read_sql accepts a path, a URL or a name", "statement": "read_sql raises ValueError exactly if both or none of a path and a name are given, and connects to a URL if the path is one.", "quantifier": "all paths, names and working directories", "why_tests_cant": "Quantifies over all strings; whether a URL survives os.path.abspath depends on its characters.", "anchors": ["soil/analysis.py: read_sql"]}
{"id": "C169", "title": "What was exported to SQLite is read back", "statement": "After simulations were written to a database, read_sql gives for every iteration its parameters, and for every step the values of the model reporters and of the agent reporters that were collected.", "quantifier": "all sequences of simulations, parameters, iterations and collected values", "why_tests_cant": "Quantifies over all histories of a database.", "anchors": ["soil/exporters.py: SQLite.iteration_end", "soil/exporters.py: get_dc_dfs", "soil/analysis.py: read_sql"]}
{"id": "C170", "title": "Reporters and tables may have any names", "statement": "Everything that the reporters and tables of a model have collected is written to the database, whatever their names.", "quantifier": "all names, collected values and databases", "why_tests_cant": "Quantifies over all names and states of the database.", "anchors": ["soil/exporters.py: get_dc_dfs", "soil/exporters.py: SQLite.iteration_end"]}
{"id": "C171", "title": "The log of a simulation is shown on the web page", "statement": "The records that a simulation started from the web page logs reach the handler that captures them.", "quantifier": "all names of simulations and all loggers of a run", "why_tests_cant": "Quantifies over all names.", "anchors": ["soil/web/__init__.py: SocketHandler.logging", "soil/simulation.py: Simulation.__post_init__"]}
{"id": "C172", "title": "Captured lines are sent in order and at most once", "statement": "The lines of the log that a connection sends are lines that were captured, in the same order, none of them twice.", "quantifier": "all interleavings of logging threads and the event loop, with any number of runs", "why_tests_cant": "Quantifies over all interleavings; the window between truncate and seek is a few instructions.", "anchors": ["soil/web/__init__.py: SocketHandler.update_logging"]}
{"id": "C173", "title": "No captured line is lost", "statement": "Every line that is captured is sent to the client.", "quantifier": "all interleavings of logging threads and the event loop", "why_tests_cant": "Quantifies over all interleavings.", "anchors": ["soil/web/__init__.py: SocketHandler.update_logging", "soil/web/__init__.py: SocketHandler.logging"]}
{"id": "C174", "title": "Runs of a connection do not disturb each other's log", "statement": "While a run goes on its lines are captured and sent, whatever other runs of the same connection do.", "quantifier": "all interleavings of all runs of a connection", "why_tests_cant": "Quantifies over all interleavings.", "anchors": ["soil/web/__init__.py: SocketHandler.logging", "soil/web/__init__.py: SocketHandler.run_simulation"]}
{"id": "C175", "title": "A configuration can be run from the web page", "statement": "If a configuration is uploaded, or run again with new parameters, the client gets the list of trials, and the graph of a trial that it asks for.", "quantifier": "all sequences of messages and all simulations", "why_tests_cant": "Quantifies over all sequences of messages and results.", "anchors": ["soil/web/__init__.py: SocketHandler.on_message", "soil/web/__init__.py: SocketHandler.run_simulation", "soil/web/__init__.py: SocketHandler.get_trial"]}
{"id": "C176", "title": "The settings of the web page are the parameters", "statement": "The client gets one setting for each parameter, in order, with its value; small numbers, larger numbers and booleans are told apart.", "quantifier": "all configurations and parameters", "why_tests_cant": "Quantifies over all configurations.", "anchors": ["soil/web/__init__.py: SocketHandler.on_message"]}
{"id": "C177", "title": "A wrong message does not end the connection", "statement": "A message that cannot be handled gets an error as an answer, and the connection stays open.", "quantifier": "all states of a connection and all messages", "why_tests_cant": "Quantifies over all messages.", "anchors": ["soil/web/__init__.py: SocketHandler.on_message"]}
{"id": "C178", "title": "The options of soil-web are respected", "statement": "soil-web listens on the port that is given, shows the name that is given, and dumps results if told so.", "quantifier": "all options", "why_tests_cant": "Quantifies over all options; the server is only started by hand.", "anchors": ["soil/web/__init__.py: main", "soil/web/__init__.py: run", "soil/web/__init__.py: ModularServer.__init__", "soil/web/__init__.py: ModularServer.launch"]}
{"id": "C179", "title": "plot draws what the model has collected", "statement": "plot(env) draws the values of all numeric model reporters (except the number of agents) by time, or by step if steps=True.", "quantifier": "all collected data and names of reporters", "why_tests_cant": "Quantifies over all names of reporters and collected values.", "anchors": ["soil/analysis.py: plot", "soil/environment.py: BaseEnvironment.model_df"]}
{"id": "C180", "title": "plot counts the agents for each value", "statement": "For each time and each value of an agent reporter, plot draws the number of agents that had this value.", "quantifier": "all histories of data collection", "why_tests_cant": "Quantifies over all histories.", "anchors": ["soil/analysis.py: plot", "soil/environment.py: BaseEnvironment.agent_df"]}
{"id": "C181", "title": "The page for notebooks shows a model with the chosen parameters", "statement": "After any actions of the user the model that is shown, and that the controller has, was made with the parameters chosen; a reset or a changed value makes a new model, and nothing else does.", "quantifier": "all parameters and sequences of actions", "why_tests_cant": "Quantifies over all sequences of actions.", "anchors": ["soil/visualization.py: JupyterPage", "soil/visualization.py: JupyterViz"]}
{"id": "C182", "title": "The page for notebooks draws the space and the measures", "statement": "The page draws the space, unless it is switched off, and each measure of the current model; both are optional.", "quantifier": "all actions, space drawers and measures", "why_tests_cant": "Quantifies over all sequences of actions.", "anchors": ["soil/visualization.py: JupyterPage"]}
{"id": "C183", "title": "A configuration survives being written and read", "statement": "The dictionary that a simulation is written to has the same fields with the same values as the simulation, so that reading it gives the same configuration.", "quantifier": "all configurations: fields with texts, numbers, classes, lists and dictionaries, nested arbitrarily", "why_tests_cant": "Quantifies over all nested values; tests use one or two configurations without lists of numbers.", "anchors": ["soil/simulation.py: Simulation.to_dict", "soil/simulation.py: Simulation.to_yaml", "soil/serialization.py: serialize_dict"]}
{"id": "C184", "title": "Classes of a written configuration are found again", "statement": "If the model or an exporter of a simulation is a class, then reading the written configuration gives the same class.", "quantifier": "all classes, modules and known modules", "why_tests_cant": "Quantifies over all states of the modules; tests use classes of soil only.", "anchors": ["soil/simulation.py: Simulation.to_dict", "soil/serialization.py: serialize_dict", "soil/serialization.py: deserializer"]}
{"id": "C185", "title": "Writing a configuration does not change it", "statement": "After to_dict or to_yaml the fields of the simulation, and everything that can be reached from them, are as before.", "quantifier": "all simulations, with lists that are shared in any way", "why_tests_cant": "Quantifies over all heaps; sharing between fields is not covered by tests.", "anchors": ["soil/simulation.py: Simulation.to_dict", "soil/serialization.py: serialize_dict"]}
{"id": "C186", "title": "Decorators of states are respected", "statement": "A function decorated with state is a state of its class under the name given, or its own, with that function; and if state or default_state says that it is the default, agents of the class start in it.", "quantifier": "all class bodies, names, bases and orders of the decorators", "why_tests_cant": "Quantifies over all class bodies and orders of decorators; tests use one order.", "anchors": ["soil/agents/fsm.py: state", "soil/agents/fsm.py: default_state", "soil/agents/fsm.py: MetaFSM.__new__"]}
{"id": "C187", "title": "Declaring a class does not change other classes", "statement": "The states and the initial state of a class follow from its bases and its body, and declaring a class leaves all classes declared before as they are.", "quantifier": "all sequences of class declarations", "why_tests_cant": "Quantifies over all sequences of declarations; tests declare few classes and never compare one class before and after.", "anchors": ["soil/agents/fsm.py: default_state", "soil/agents/fsm.py: MetaFSM.__new__"]}
{"id": "C188", "title": "A customised class differs from its template only in the attributes given", "statement": "Agents of cls.w(**kwargs) have the attributes given in kwargs as defaults, and all other attributes as agents of cls.", "quantifier": "all templates, keyword arguments, models and constructor arguments", "why_tests_cant": "Quantifies over all classes and arguments.", "anchors": ["soil/agents/__init__.py: custom", "soil/agents/__init__.py: BaseAgent.w", "soil/agents/__init__.py: MetaAgent.__new__"]}
{"id": "C189", "title": "A customised class has the states of its template", "statement": "cls.w(**kwargs) has the same states as cls, and its agents start in the same state as those of cls.", "quantifier": "all FSM classes and hierarchies", "why_tests_cant": "Quantifies over all hierarchies of FSM classes.", "anchors": ["soil/agents/__init__.py: custom", "soil/agents/fsm.py: MetaFSM.__new__"]}
{"id": "C190", "title": "A customised class is found by its name", "statement": "Reading the name under which a customised class is written gives this class.", "quantifier": "all templates, modules and known modules", "why_tests_cant": "Quantifies over all states of the modules.", "anchors": ["soil/agents/__init__.py: custom", "soil/serialization.py: name", "soil/serialization.py: deserializer"]}
{"id": "C191", "title": "No agent starves", "statement": "An agent that is scheduled for a finite time is activated at that time after finitely many steps, whatever the other agents do.", "quantifier": "all models, histories, agents and times", "why_tests_cant": "Quantifies over all infinite executions; a test sees a finite prefix of one.", "anchors": ["soil/time.py: TimedActivation.step", "soil/time.py: TimedActivation._schedule"]}
{"id": "C192", "title": "A subgraph has the nodes of the chosen agents", "statement": "agent.subgraph(**criteria) consists of the nodes of the living agents that satisfy the criteria, its own node unless center is false, and the edges between them.", "quantifier": "all networks, histories, agents and criteria", "why_tests_cant": "Quantifies over all networks and populations; the test has three agents, all of them on the network.", "anchors": ["soil/agents/network_agents.py: NetworkAgent.subgraph", "soil/agents/network_agents.py: NetworkAgent.iter_agents"]}
{"id": "C193", "title": "Edges have the attributes given", "statement": "After agent.add_edge(other, attributes) the edge has these attributes, and the attributes of other edges are as before.", "quantifier": "all networks, agents and attributes", "why_tests_cant": "Quantifies over all attributes; no test gives any.", "anchors": ["soil/agents/network_agents.py: NetworkAgent.add_edge"]}
{"id": "C194", "title": "add_agents fills a network", "statement": "add_agents on an environment with a network adds k agents, or as many as there are nodes; network agents take the free nodes; an error leaves no agents behind.", "quantifier": "all networks, classes, weights, numbers and random numbers", "why_tests_cant": "Quantifies over the random choices of the constructors.", "anchors": ["soil/environment.py: NetworkEnvironment.add_agents", "soil/environment.py: NetworkEnvironment.add_agent", "soil/agents/network_agents.py: NetworkAgent.__init__"]}
{"id": "C195", "title": "Agents are on the nodes they are given", "statement": "After populate_network, each node has one agent, which takes itself to be on that node, for every class of network agents, whatever arguments its constructor passes on.", "quantifier": "all networks, classes and random numbers", "why_tests_cant": "Quantifies over the random choices of the constructors.", "anchors": ["soil/environment.py: NetworkEnvironment.populate_network", "soil/agents/network_agents.py: NetworkAgent.__init__", "examples/mesa/social_wealth.py: MoneyAgent.__init__"]}
{"id": "C196", "title": "Timed blocks are reported", "statement": "Every block of code run in a timer is logged when it starts and when it ends, with its name and how long it took, and the object given is told both times.", "quantifier": "all programs with nested timed blocks, exceptions at any point, all clocks that do not go back", "why_tests_cant": "Quantifies over all programs and all points at which they may raise; no test looks at the log of timers.", "anchors": ["soil/utils.py: timer"]}
{"id": "C197", "title": "easy runs a simulation and hands over its results", "statement": "with easy(config) as results runs the simulation once and executes the block with its results.", "quantifier": "every configuration, every outcome of the run", "why_tests_cant": "No test uses easy; the outcome of every possible run is quantified over.", "anchors": ["soil/__init__.py: easy", "soil/__init__.py: main"]}
{"id": "C198", "title": "The options of the debugger are respected", "statement": "set_trace and post_mortem stop at the frame or traceback they are given, with the options they are given; skip_soil skips the modules of soil and mesa, and those only.", "quantifier": "all histories of calls, all module names, all options", "why_tests_cant": "Quantifies over all histories of calls and all names of modules; no test opens the debugger with options.", "anchors": ["soil/debugging.py: Debug.__init__", "soil/debugging.py: set_trace", "soil/debugging.py: post_mortem"]}
{"id": "C199", "title": "Writing a graph to a file does not change it", "statement": "dump_gexf writes all nodes with their attributes, positions as places in the picture, and leaves the graph as it was.", "quantifier": "all graphs and attributes of nodes", "why_tests_cant": "Quantifies over all graphs; the test writes one and does not use it afterwards.", "anchors": ["soil/network.py: dump_gexf"]}
{"id": "C200", "title": "A dry run shows what would be written", "statement": "In a dry run the content collected for a file is what would have been written to it, what is copied to the terminal is this content, and the same errors are raised.", "quantifier": "all sequences of texts and bytes, all modes", "why_tests_cant": "Quantifies over all sequences of writes.", "anchors": ["soil/exporters.py: DryRunner.write", "soil/exporters.py: Exporter.output"]}
{"id": "C201", "title": "Different seeds give different numbers", "statement": "int_seed gives different numbers for different seeds.", "quantifier": "all pairs of seeds", "why_tests_cant": "Quantifies over all pairs of strings.", "anchors": ["soil/utils.py: int_seed", "examples/terrorism/TerroristNetworkModel_sim.py: TerroristEnvironment.generator"]}
{"id": "C202", "title": "The log of a run is polled once per interval while it lasts", "statement": "From the beginning to the end of a run exactly one call of update_logging is scheduled or under way, and after its end only the call already scheduled takes place.", "quantifier": "all interleavings of runs, logging threads and the event loop", "why_tests_cant": "Quantifies over all interleavings of events, of any length.", "anchors": ["soil/web/__init__.py: SocketHandler.update_logging", "soil/web/__init__.py: SocketHandler.logging"]}
{"id": "C203", "title": "The scheduler keeps its guarantees with the numbers of Python", "statement": "With integers and floating-point numbers as Python computes with them, the clock never goes backwards, an agent that asks for a positive delay acts next at the sum of the time and the delay, at a later time, and at(t) wakes up at t.", "quantifier": "all agents, delays, additions, orders and histories of steps", "why_tests_cant": "Quantifies over all histories and all numbers; the failures appear only for particular delays or after times that a test does not reach.", "anchors": ["soil/time.py: TimedActivation.step", "soil/time.py: TimedActivation._schedule", "soil/time.py: Delay", "soil/agents/__init__.py: BaseAgent.at"]}
{"id": "C204", "title": "The priority queue can always compare its entries", "statement": "Adding, popping and replacing entries of the priority queue never compares two agents, so that no operation of the scheduler raises TypeError.", "quantifier": "all agents, keys, additions, delays and histories of steps", "why_tests_cant": "Quantifies over all histories and all orders inside the heap; a tie of random keys has probability 2**-53 per pair and never shows up in a test.", "anchors": ["soil/time.py: PQueueActivation._schedule", "soil/time.py: PQueueActivation.add", "soil/time.py: PQueueActivation.step"]}
{"id": "C205", "title": "A configuration of agents yields the agents that it asks for", "statement": "agents.from_config returns all agents given one by one, one agent for each node that is left if there are kinds for the nodes, and agents up to the total if there are kinds for the total; no more agents are put in the topology than there are nodes, and nodes that stay free are reported with a warning.", "quantifier": "every configuration, number of nodes and random draws", "why_tests_cant": "Quantifies over all configurations, sizes and draws; there is no test, and the package cannot run the function at all.", "anchors": ["soil/agents/__init__.py: from_config", "soil/agents/__init__.py: _from_fixed", "soil/config.py"]}
{"id": "C206", "title": "With the numbers of Python, a Lockstepper covers exactly one interval per step", "statement": "With integers and floating-point numbers, n steps of a Lockstepper take its clock to exactly n intervals after its beginning, and each step runs exactly the activations that are due before the end of its interval.", "quantifier": "every scheduler, user code, interval, and number of steps, with numbers as Python computes with them", "why_tests_cant": "Quantifies over all intervals and numbers of steps; rounding errors accumulate over many steps and depend on the interval.", "anchors": ["soil/time.py: Lockstepper.step", "soil/time.py: Lockstepper.__init__"]}
{"id": "C207", "title": "Agents may die or be added while an agent iterates over the agents", "statement": "A loop over iter_agents or get_agents runs its body once for every agent that satisfies the criteria when the loop begins, up to the limit, and raises nothing itself, whatever the body does to the agents.", "quantifier": "every population, criteria, limit, and loop body, including bodies that kill or add agents or change other agents", "why_tests_cant": "Quantifies over all loop bodies and populations; whether anything is lost depends on who dies during the loop, on the order, and on the version of Python.", "anchors": ["soil/agents/__init__.py: BaseAgent.iter_agents", "soil/agents/__init__.py: BaseAgent.get_agents", "soil/agents/__init__.py: filter_agents", "examples/rabbits/rabbit_improved_sim.py: RandomAccident.step"]}
{"id": "C208", "title": "The life of an improved rabbit", "statement": "A rabbit of the improved example is activated when it is born, at its sexual maturity and then every time unit until it dies; it is fertile or pregnant only from its sexual maturity on, and it dies at most two time units after its life expectancy or its sexual maturity, whichever is later.", "quantifier": "every run from which no exception has escaped yet, number of steps, choice of the random generator, order of activation, and parameters of the rabbits", "why_tests_cant": "Quantifies over unbounded runs with a growing population and over all random choices.", "anchors": ["examples/rabbits/rabbit_improved_sim.py: Rabbit", "examples/rabbits/rabbit_improved_sim.py: Male.fertile", "examples/rabbits/rabbit_improved_sim.py: Female", "soil/time.py: TimedActivation.step", "soil/agents/fsm.py: FSM.step"]}
{"id": "C209", "title": "Matings, litters and children of the improved rabbits", "statement": "Only grown-up rabbits mate; every litter has its own mating of the mother, at least one gestation before; it has 8 to 11 young; every child is scheduled when it is born and its father mated with its mother; and offspring counts the children of a rabbit.", "quantifier": "every run from which no exception has escaped yet, number of steps, choice of the random generator, order of activation, and parameters of the rabbits", "why_tests_cant": "Quantifies over unbounded runs with a growing population and over all random choices; relates distant moments of a run.", "anchors": ["examples/rabbits/rabbit_improved_sim.py: Male.fertile", "examples/rabbits/rabbit_improved_sim.py: Female.impregnate", "examples/rabbits/rabbit_improved_sim.py: Female.pregnant"]}
{"id": "C210", "title": "The network of the improved rabbits consists of the living rabbits", "statement": "After every step of the improved example the nodes of the network are the living rabbits, each once, edges join living rabbits only, and the rabbits in the schedule are the living ones.", "quantifier": "every run from which no exception has escaped yet, number of steps, choice of the random generator, order of activation, and parameters of the rabbits", "why_tests_cant": "Quantifies over unbounded runs with births and deaths, and over all random choices.", "anchors": ["examples/rabbits/rabbit_improved_sim.py: Female.pregnant", "soil/agents/network_agents.py: NetworkAgent.die", "soil/environment.py: NetworkEnvironment.add_node"]}
{"id": "C211", "title": "Accidents kill every improved rabbit with the same probability", "statement": "In every activation of RandomAccident one random number is drawn for every living rabbit that is not in the state dead, exactly the rabbits whose number is below prob_death times the number of digits of the population minus one die, and nothing else happens; with fewer than ten rabbits nobody dies.", "quantifier": "every population, schedule, random numbers and probability", "why_tests_cant": "Quantifies over all populations and random numbers; deaths while the agents are iterated depend on the version of Python.", "anchors": ["examples/rabbits/rabbit_improved_sim.py: RandomAccident.step", "soil/agents/__init__.py: BaseAgent.iter_agents"]}
{"id": "C212", "title": "No exception escapes from the improved rabbits", "statement": "No run of the improved rabbits ends with an exception.", "quantifier": "every run, number of steps, choice of the random generator, order of activation, and parameters of the rabbits", "why_tests_cant": "Quantifies over unbounded runs and all random choices; the failing runs need deaths at particular moments of a pregnancy.", "anchors": ["examples/rabbits/rabbit_improved_sim.py: Female.pregnant", "examples/rabbits/rabbit_improved_sim.py: RandomAccident.step", "soil/agents/network_agents.py: NetworkAgent.add_edge"]}
{"id": "C213", "title": "Leaders of terrorists", "statement": "When a terrorist is activated it becomes a leader exactly if no person next to it is a leader and no terrorist next to it is more central; when a leader is activated it steps down exactly if a terrorist or leader next to it is more central; and in an undirected network two leaders are never next to each other unless they were from the beginning.", "quantifier": "every graph, placement of the agents, assignment of states and parameters, and choice of the random generator", "why_tests_cant": "Quantifies over all graphs and all runs; the invariant relates every pair of neighbours at every moment.", "anchors": ["examples/terrorism/TerroristNetworkModel_sim.py: TerroristSpreadModel.leader", "examples/terrorism/TerroristNetworkModel_sim.py: TerroristSpreadModel.terrorist"]}
{"id": "C214", "title": "The inherited methods of a dictionary work on agents", "statement": "An agent behaves like the dictionary of its attributes under every operation that a MutableMapping offers: the results and the attributes afterwards are those of the same operations (get, set, del, in, len, pop, popitem, setdefault, update, clear) on that dictionary.", "quantifier": "every agent, class, attribute name and value, and every sequence of operations", "why_tests_cant": "Refinement between two objects under every sequence of operations, including methods that are inherited from collections.abc and never called by the tests.", "anchors": ["soil/agents/__init__.py: BaseAgent.__getitem__", "soil/agents/__init__.py: BaseAgent.__delitem__", "soil/agents/__init__.py: BaseAgent.__iter__", "soil/agents/__init__.py: BaseAgent.__len__", "soil/agents/__init__.py: BaseAgent.items"]}
{"id": "C215", "title": "Messages between agents are conserved", "statement": "Whatever the agents do, every message told, asked or broadcast to an evented agent is, in order of sending, handed exactly once to its on_receive, or passed over because it has expired, or still in its inbox; nothing is dealt with before it is sent, and the reply that the asker of a question finds is what on_receive returned for that question.", "quantifier": "every population, user code of the agents and of on_receive (including sending and processing messages, exceptions), scheduler and history of steps", "why_tests_cant": "An invariant of complete simulations with arbitrary adaptive agents; tests send a few messages between two agents.", "anchors": ["soil/agents/evented.py: EventedAgent.process_messages", "soil/agents/evented.py: EventedAgent.tell", "soil/agents/evented.py: EventedAgent.ask", "soil/environment.py: EventedEnvironment.broadcast", "soil/events.py: Ask"]}
{"id": "C216", "title": "Values survive serialize and deserialize", "statement": "Deserializing the text and the type name that serialize gives for a value yields the value again, however deeply nested and whatever texts it contains; different values are never written in the same way.", "quantifier": "every value made of None, booleans, integers, floating-point infinity, texts, lists, tuples and dictionaries, and every notion of which characters are printable", "why_tests_cant": "A round trip over all nested values and all texts with quotes, backslashes and control characters; tests round-trip a handful of values.", "anchors": ["soil/serialization.py: serialize", "soil/serialization.py: serializer", "soil/serialization.py: deserialize", "soil/serialization.py: deserializer"]}
{"id": "C217", "title": "Names of agent classes", "statement": "The name that _serialize_type gives for an agent class does not depend on earlier calls, calling it changes nothing, and _deserialize_type turns the name into that class again.", "quantifier": "every set of modules and classes and every sequence of calls", "why_tests_cant": "State kept between calls in a mutable default argument grows without limit; a test sees one call.", "anchors": ["soil/agents/__init__.py: _serialize_type", "soil/agents/__init__.py: _deserialize_type"]}
{"id": "C218", "title": "An answer is noticed within one delay", "statement": "An agent that asks another one looks for the reply once per delay from the question on. When it goes on with a reply, that is what on_receive of the target returned for this question, not longer than one delay ago, and before the deadline; every answer that is given before the deadline is noticed, and TimedOut is raised only if there was none.", "quantifier": "every population, user code of all agents (before, during and after the question), scheduler and history, every timeout and delay", "why_tests_cant": "Interleaving of the polling coroutine with arbitrary other agents over complete simulations; tests have one agent that answers at once.", "anchors": ["soil/agents/evented.py: EventedAgent.ask", "soil/agents/evented.py: EventedAgent.process_messages", "soil/events.py: TimedOut"]}
{"id": "C219", "title": "PQueueActivation keeps its guarantees with the numbers of Python", "statement": "With Python integers and rounded floating-point numbers as times and delays, a step of PQueueActivation ends, activates exactly the agents that are due at the earliest time, and an agent that asked for a delay d at time t acts next at the sum d + t as Python computes it.", "quantifier": "every population added at time 0, every user code that adds no agents, every interval and history, all integer and floating-point delays", "why_tests_cant": "Rounding and the heap order interact over unbounded executions; tests use a few small integers.", "anchors": ["soil/time.py: PQueueActivation.step", "soil/time.py: PQueueActivation._schedule", "soil/time.py: PQueueActivation.add"]}
{"id": "C220", "title": "An agent that waits for messages in a loop deals with each of them within one delay", "statement": "While an agent calls received again and again (with a positive timeout, catching TimedOut), every message sent to it is dealt with at most one delay after it was sent and the agent was added, unless an exception escapes from its process_messages. Hence a question to such an agent that is answered with something true is noticed by the asker within the delay of the one plus the delay of the other, if the deadline is later. With a timeout that is not positive the loop never gives control back.", "quantifier": "every behaviour of all the other agents, every history of additions, steps and code run from outside, all intervals, delays and timeouts", "why_tests_cant": "The bound concerns all interleavings of two polling loops with different periods and with the timeout of the loop; tests use one pair of periods.", "anchors": ["soil/agents/evented.py: EventedAgent.received", "soil/agents/evented.py: EventedAgent.ask", "soil/agents/evented.py: EventedAgent.process_messages", "soil/time.py: TimedActivation.step"]}
{"id": "C221", "title": "The step of a class may call the step of another class", "statement": "Every class that defines step gets a wrapper that makes plain functions, generators and coroutines usable as steps. A step that calls the step of a base class runs the code of that class, resumed where that class was suspended, and the scheduler gets the delay that results, whatever the kinds of the two steps are.", "quantifier": "every table of classes and steps, every code of the steps, every series of activations", "why_tests_cant": "All the wrappers of an agent share one attribute for the suspended generator; tests contain no class in which two steps of different kinds call each other.", "anchors": ["soil/agents/__init__.py: MetaAgent.__new__", "soil/agents/__init__.py: func", "soil/agents/fsm.py: FSM.step"]}
{"id": "C222", "title": "The default interval of a model is what its class declares", "statement": "An environment whose class (or parameters) say default_interval gets a scheduler whose agents rest that long when they do not ask for a delay; without it they rest for one unit of time. Making the environment does not fail because of that.", "quantifier": "every class of environments, every parameters, every value of the interval", "why_tests_cant": "No test or example declares default_interval.", "anchors": ["soil/time.py: DiscreteTimeEvent / AsyncActivation", "soil/environment.py: BaseEnvironment.__init__"]}
{"id": "C223", "title": "Whole simulations of the virus benchmark run the agreed number of steps", "statement": "In the benchmark of the virus on a network, every step of the environment activates every agent that still can change exactly once, at the time that is the number of steps; the statuses after every step are statuses that mesa's version of the benchmark can have after as many steps; and the simulation ends after MAX_STEPS steps, as it asserts.", "quantifier": "every network, initial infection, probabilities, random numbers, shuffles, numbers of steps", "why_tests_cant": "The benchmark is random and is only run for one number of agents and of steps, with which somebody is always susceptible.", "anchors": ["benchmarks/virusonnetwork/soil_step.py: VirusAgent.step", "benchmarks/virusonnetwork/soil_states.py: VirusAgent", "benchmarks/virusonnetwork/_config.py", "benchmarks/virusonnetwork/mesa_basic.py: VirusOnNetwork.step", "soil/time.py: TimedActivation.step", "soil/simulation.py: Simulation._run_model"]}
{"id": "C224", "title": "A delay that is not a number does not disturb the simulation", "statement": "When the step of an agent gives NaN, the other agents are woken exactly when they asked for, agents that are created meanwhile start at a time of the clock, the agent itself is woken again at a time of the clock (or an error is reported), and a simulation with max_time ends.", "quantifier": "every host program whose delays are numbers, inf or NaN, every history of steps and additions, both schedulers", "why_tests_cant": "No test returns NaN from a step; comparisons with NaN are silently false, so nothing fails when it happens.", "anchors": ["soil/time.py: TimedActivation._schedule", "soil/time.py: TimedActivation.step", "soil/time.py: PQueueActivation.step", "soil/simulation.py: Simulation._run_model"]}
{"id": "C225", "title": "Combinations of parameters are told apart in the results", "statement": "The results of a combination of parameters are written with an identifier that depends only on the names and values of the parameters, not on the order in which they are given, and different combinations of a run have different identifiers, so that after reading the database each iteration is found by its parameters.", "quantifier": "every configuration of parameters and matrix with literal values, every number of iterations, every hash function in place of SHA-256", "why_tests_cant": "Tests look at one or two combinations; that seven digits do not suffice, that the text before hashing is injective, and that the order does not matter are statements about all configurations.", "anchors": ["soil/simulation.py: Simulation.run", "soil/simulation.py: Simulation._collect_params", "soil/exporters.py: SQLite.iteration_end", "soil/analysis.py: read_sql"]}
{"id": "C226", "title": "Kinds of viewers are chosen with the ratios given", "statement": "In the runs of the news example, each viewer is dumb, herd or wise with the probabilities ratio_dumb, ratio_herd and ratio_wise of the run; ratios that are no probabilities are refused.", "quantifier": "every pair of ratios, every number of nodes, every sequence of random numbers", "why_tests_cant": "The example only prints how many simulations were run; nobody counts the kinds of viewers.", "anchors": ["examples/newsspread/newsspread_sim.py: NewsSpread.init", "soil/environment.py: NetworkEnvironment.populate_network"]}
{"id": "C227", "title": "What is read from the database is the history of each iteration", "statement": "After a simulation whose iterations return, read_sql gives for each combination of parameters and each iteration the parameters, and for each reporter exactly one value for the start and one for each step until the limits of the simulation were reached, with their times; and for each reporter of agents one value for each agent that was scheduled at that moment.", "quantifier": "every simulation, every combination and iteration, every model, scheduler, reporter and limit", "why_tests_cant": "Tests look at the number of rows of one small simulation; the path from the loop of the simulation over the collector and the exporter to the reader is never followed as a whole.", "anchors": ["soil/simulation.py: Simulation.run, _run_model", "soil/environment.py: BaseEnvironment.step", "soil/datacollection.py: SoilCollector", "soil/exporters.py: SQLite, get_dc_dfs", "soil/analysis.py: read_sql"]}
{"id": "C228", "title": "The command line runs the simulations of the file, or tells why not", "statement": "main runs every simulation of the file or object once, in order, and returns the results in this order; with --convert it only shows each configuration, with --version it does nothing. If loading, configuring or running fails, the exception reaches the caller, and nothing is run after it; a file that does not exist is such a failure. The debugger is opened for an exception exactly if --pdb or the argument pdb asks for it, and one call does not influence another one in the same process.", "quantifier": "every list of simulations, every combination of options and arguments, every failure, every sequence of calls", "why_tests_cant": "The tests never call main with several simulations, with failures or several times in one process.", "anchors": ["soil/__init__.py: main", "soil/__init__.py: easy"]}
{"id": "C229", "title": "Options of the command line reach every environment", "statement": "After soil file with --seed, --iterations and --set, there is one environment for each simulation, combination of parameters and iteration asked for, its seed is made of the seed given and the number of the iteration, and it has the values given with --set besides the other parameters of its combination.", "quantifier": "every file, every options, every matrix and parameters", "why_tests_cant": "The path from the options over the fields of the simulation and its combinations to the arguments of the environments is never tested as a whole.", "anchors": ["soil/__init__.py: main", "soil/simulation.py: Simulation.run, _collect_params, _get_env"]}
{"id": "C230", "title": "Agents that wait one interval are activated in rounds, as in mesa", "statement": "If no agent ever asks for a delay of its own, then each step of the default scheduler activates every agent of the schedule exactly once, at the times 0, interval, 2*interval, ..., in the order of addition if shuffling is off, and a model written for mesa's BaseScheduler or RandomActivation does the same with soil's scheduler: the same worlds, agents, steps and times after every step. This also holds for models that add agents to the schedule or remove them from it.", "quantifier": "every set of agents, every code of the agents, every interval, with or without shuffling, every number of steps", "why_tests_cant": "Equality of two schedulers for all programs; the tests compare the results of a few programs only.", "anchors": ["soil/time.py: TimedActivation.step, add, _schedule", "soil/environment.py: BaseEnvironment.step"]}
{"id": "C231", "title": "The Torvalds example counts steps, neighbours and agents", "statement": "In the Torvalds example, on any network that has the two named developers, init gives Torvalds the skill God, balkian the skill developer and everybody else beginner, and it fails if one of them is missing. The simulation does exactly max_steps steps; after k steps every agent has run k times and knows the number of its neighbours and of the agents, the skills are unchanged and god_developers is 1.", "quantifier": "every network, every shuffle, every number of steps", "why_tests_cant": "The example is run once, on a network of three nodes, and its results are not looked at.", "anchors": ["examples/torvalds_sim.py: TorvaldsEnv", "soil/agents/CounterModel.py: CounterModel.step", "soil/environment.py: agent, count_agents"]}
{"id": "C232", "title": "The programmatic example runs a fifth of the time on average", "statement": "In the programmatic example with any number of nodes, the simulation ends when the clock reaches max_time, after max_time steps. Every agent is activated once in every step and uses one random number; the counters times_run add up to the number of random numbers below the probability, none exceeds the number of steps, all agents stay in their state, and if the random numbers are uniform and independent, the average is exactly the probability times the number of activations.", "quantifier": "every number of nodes, every probability, every sequence of random numbers, every shuffle", "why_tests_cant": "A statement about all sequences of random numbers and about their average; the example uses one seed.", "anchors": ["examples/programmatic/programmatic_sim.py: MyAgent, ProgrammaticEnv", "soil/agents/fsm.py: FSM.step", "soil/agents/__init__.py: prob"]}
{"id": "C233", "title": "In a simulation of SISa agents moods spread along the network", "statement": "In a simulation of SISa agents on any network, every agent is neutral, discontent or content after every step, and nothing is raised. Both discontent and contentment spread to neighbours: if infection is certain and nobody recovers, then after k steps everybody is infected who is at most k edges away from somebody infected at the beginning; and without spontaneous changes only those are who are connected with such an agent.", "quantifier": "every network, every number of agents, every choice of parameters for each agent, every sequence of random numbers, every interval, with and without shuffling, every number of steps", "why_tests_cant": "A statement about whole runs on all networks; no test runs the model and looks at its states.", "anchors": ["soil/agents/SISaModel.py: neutral, discontent, content", "soil/agents/fsm.py: FSM.step", "soil/agents/network_agents.py: count_neighbors", "soil/time.py: TimedActivation.step"]}
{"id": "C234", "title": "In a simulation of the cascade model awareness spreads along the network", "statement": "In a simulation of independent cascade agents on any network, every agent is outside or aware after every step, nothing is raised, who is aware stays so, and time_awareness is the time of the step in which the agent became aware. Whether an agent becomes aware depends on innovation and on its aware neighbours.", "quantifier": "every network, every number of agents, all probabilities, every sequence of random numbers, every interval, with and without shuffling, every number of steps", "why_tests_cant": "A statement about whole runs on all networks; no test runs the model and looks at its states.", "anchors": ["soil/agents/IndependentCascadeModel.py: outside, imitate", "soil/agents/fsm.py: FSM.step", "soil/agents/network_agents.py: get_neighbors", "soil/time.py: TimedActivation.step"]}
{"id": "C235", "title": "TimedActivation obeys its calendar even when agents ask for the past", "statement": "Agents may ask for negative delays. Still, an agent that was added once is activated exactly at the times it asked for, in the order of its requests, and nothing that was asked for is lost; the clock always shows the earliest pending time, even if that is before the previous one. Whatever is asked for is eventually served if the other agents allow it.", "quantifier": "every user code without unexpected exceptions, every default interval, with and without shuffling, every history of steps, additions and removals", "why_tests_cant": "No test uses a negative delay; the exception (the time 0, falsy in Python) needs a particular arithmetic coincidence.", "anchors": ["soil/time.py: TimedActivation._schedule, TimedActivation.step", "soil/simulation.py: Simulation._run_model"]}
{"id": "C236", "title": "PQueueActivation never goes back in time", "statement": "Whatever the agents do, the clock of PQueueActivation never goes backwards and activations happen in time order. An agent that asks for a time in the past is activated at the present time; all others exactly when they asked.", "quantifier": "every user code (negative delays, exceptions, agents added at any time), every history; for the wake-ups: populations added at time 0", "why_tests_cant": "No test uses a negative delay with this scheduler; the guarantee is about all histories.", "anchors": ["soil/time.py: PQueueActivation._schedule, PQueueActivation.step"]}
{"id": "C237", "title": "Whole simulations of the social wealth model keep the money, collect it, and use the links", "statement": "For a simulation of MoneyEnv (examples/mesa/social_wealth.py, run by examples/mesa/mesa_sim.py) with any number of agents, any grid and any random numbers: it can be built and returns after max_steps steps without an exception; the agents have as many coins in all as at the start, nobody is in debt, everybody stays on the grid; the Gini coefficient (between 0 and 1 - 1/N) and the wealth of everybody are recorded at the start and after every step, and model_df() and agent_df() return them; and coins go along the links of the network, from anybody to anybody linked with them.", "quantifier": "all numbers of agents, grids, intervals, random numbers, shufflings, numbers of steps", "why_tests_cant": "There is no test of this example; what is lost (rows, links) does not raise, and exceptions come only from functions the example does not call.", "anchors": ["examples/mesa/social_wealth.py: MoneyEnv, SocialMoneyAgent, graph_generator", "examples/mesa/mesa_sim.py", "soil/environment.py: BaseEnvironment.step, BaseEnvironment.model_df, BaseEnvironment.agent_df, NetworkEnvironment.populate_network", "soil/exporters.py: get_dc_dfs"]}
{"id": "C238", "title": "Whole simulations of the city: drivers travel along the streets, for the travel times, and do not rest", "statement": "In a simulation of CityEnv (examples/markov_chains/markov_sim.py) with any drivers, any city in which one can drive (every intersection has a way out, every street an edge with the key 0 and a travel time), and whatever chance decides, no step raises; at any time every driver has travelled along streets from where it started, each leg took exactly the travel time of the fastest street (with gradual_move; otherwise no time), and it set out again as soon as it had arrived (delay(0)); the occupation of every edge is the number of drivers on it; and with lockstep=True every step of the environment ends and advances the clock by 1.", "quantifier": "all cities, drivers, random numbers, shufflings, default intervals, numbers of steps, with and without gradual_move and lockstep", "why_tests_cant": "The example has no tests, needs osmnx and a downloaded map; that delay(0) means a whole interval shows only in the times of later activations.", "anchors": ["examples/markov_chains/markov_sim.py: Roamer.step, Roamer.move_to, CityEnv.__init__", "soil/time.py: TimedActivation.step, Lockstepper.step", "soil/agents/__init__.py: decorate_generator_step, BaseAgent.delay"]}
{"id": "C239", "title": "Whole simulations of the pub crawl: everybody finds friends, gets into a pub if there is room, and gets home", "statement": "In a simulation of CityPubs (examples/pubcrawl/pubcrawl_sim.py) with any pubs and patrons, whatever chance decides and in whatever order the scheduler activates the agents, every patron whom somebody would befriend eventually finds friends; nobody waits outside while a pub has room for the group; as many patrons drink as the pubs have places, and the places of those who go home become free; and every patron who is in a pub drinks one pint per step, is drunk after max_pints + 1 pints and at home two or three steps later.", "quantifier": "all capacities, patrons, random numbers, shufflings of the friends and of the scheduler, default intervals, numbers of steps", "why_tests_cant": "The example has no tests; one run of ten steps with random patrons cannot show that the last patron never finds a friend or that half of the places stay empty.", "anchors": ["examples/pubcrawl/pubcrawl_sim.py: CityPubs, Patron, Police", "soil/time.py: TimedActivation.step", "soil/agents/fsm.py: FSM.step"]}
{"id": "C240", "title": "Whole simulations of the news example: the news reaches everybody who is connected with a TV set in time, and nobody sooner than it can", "statement": "In a simulation of NewsSpread (examples/newsspread/newsspread_sim.py) on any network, with any viewers and either scheduler, no step raises, the clock shows k intervals after k steps, and the run returns after max_steps steps; whatever the probabilities are, the news travels at most one edge per step; and if the probabilities are 1, everybody who is k edges away from a TV set has heard it after 2k + 1 steps.", "quantifier": "all networks without directions, kinds of viewers, probabilities, random numbers, shufflings, default intervals, numbers of steps, both schedulers", "why_tests_cant": "The example has no tests; one run on a random network can show neither the bounds on the time nor that the news never starts or that a single wise viewer ends the run.", "anchors": ["examples/newsspread/newsspread_sim.py: NewsSpread, DumbViewer, HerdViewer, WiseViewer", "soil/time.py: TimedActivation.step, PQueueActivation.step", "soil/agents/fsm.py: FSM.step"]}
{"id": "C241", "title": "A terrorist without civilian friends makes one relationship with a civilian who is near, or none", "statement": "update_relationships of the terrorism example does nothing for an agent with a civilian neighbour; otherwise it adds at most one edge, to a civilian among the agents within the vision range or the number of steps, who was not a neighbour before, with the probability computed from social and physical distance, and it raises no exception.", "quantifier": "all networks, kinds and states of agents, positions of the agent, weights, distances, random numbers", "why_tests_cant": "The example has no tests and its own run stops with an exception before the function could be observed; which agents are considered depends on ids, states and random numbers.", "anchors": ["examples/terrorism/TerroristNetworkModel_sim.py: TerroristNetworkModel.update_relationships", "soil/agents/network_agents.py: NetworkAgent.get_agents, iter_agents, add_edge"]}
{"id": "C242", "title": "Whole simulations of the terrorism example run for max_steps steps", "statement": "In a simulation of the terrorism example, with any network, population and either scheduler, no step raises, the clock shows k intervals and every agent has had k turns after k steps, and the run returns after max_steps steps; beliefs and vulnerabilities stay between 0 and 1, radicals remain radical, leaders remain apart, and without radicals and strong beliefs everybody remains a civilian.", "quantifier": "all symmetric networks, populations, parameters, centralities, powers and random numbers within their ranges, shufflings, default intervals, numbers of steps, both schedulers", "why_tests_cant": "No test runs the example; a single run shows neither the invariants for all networks nor that every population with a leader or terrorist ends in an exception.", "anchors": ["examples/terrorism/TerroristNetworkModel_sim.py: TerroristSpreadModel, TerroristNetworkModel, TrainingAreaModel, HavenModel", "soil/agents/fsm.py: State, FSM.step", "soil/time.py: TimedActivation.step, PQueueActivation.step"]}
{"id": "C243", "title": "The virus benchmark begins with the given outbreak, and reports every agent once", "statement": "The three versions of the virus benchmark begin, if random.sample draws the same nodes, with the same agents: exactly min(initial_outbreak_size, num_nodes) of them infected, the others susceptible; the assertion at the end of init never fails; negative sizes and networks without nodes are rejected by all versions in the same way; the numbers reported are those of the agents in each state and add up to the number of agents after every step, and the ratio is infinite exactly if nobody is susceptible.", "quantifier": "all numbers of nodes, outbreak sizes (negative ones and too large ones included), samples, statuses, networks, parameters, random numbers, numbers of steps", "why_tests_cant": "The benchmark is run with one size and one number of agents; whether the query by a list of nodes finds exactly the sampled agents depends on filter_agents for all lists.", "anchors": ["benchmarks/virusonnetwork/soil_step.py: VirusOnNetwork", "benchmarks/virusonnetwork/soil_states.py: VirusOnNetwork", "benchmarks/virusonnetwork/mesa_basic.py: VirusOnNetwork.__init__", "soil/agents/__init__.py: filter_agents", "benchmarks/virusonnetwork/_config.py: run_sim"]}
{"id": "C244", "title": "Whole simulations of mesa's wealth model keep the money, move everybody and record every state", "statement": "For a simulation of MoneyModel (examples/mesa/wealth.py) with any number of agents, any grid and any random numbers: it can be built and every step succeeds; after k steps the agents have N coins in all, nobody is in debt and everybody is on the grid; in each step every agent moves exactly once, to another cell that touches its own (across the borders), gives at most one coin and gets at most N - 1; a coin that is given goes to somebody else; and the collector has one row for each state, the last included, with the Gini coefficient of that state.", "quantifier": "all numbers of agents, widths, heights, initial places, random numbers, orders of agents and numbers of steps", "why_tests_cant": "There is no test of this example; the smallest grids and populations, and the row of the last state, are not looked at by running it.", "anchors": ["examples/mesa/wealth.py: MoneyModel", "examples/mesa/wealth.py: MoneyAgent", "examples/mesa/wealth.py: compute_gini"]}
{"id": "C245", "title": "In the example of drivers and passengers everybody gets home, and the simulation ends", "statement": "For the simulation of examples/cars/cars_sim.py on a square grid (side n at least 2) with at least one driver and k passengers, whatever is drawn and in whatever order agents due at the same time act: all passengers have got home and stopped by the time 30 + (k-1)*max(4n+43, 90) + 4n + 102; no agent is activated later than 30 after that, so there are finitely many activations; when nobody is left to activate all have stopped, all passengers are at their destinations and the drivers have earned exactly the tips of all journeys. In the configuration of the file (100 x 100 cells, one driver, two passengers) both are home before max_time. Without drivers nobody ever gets home.", "quantifier": "all sizes of square grids, numbers and places of drivers and passengers, destinations, tips, random walks and orders of activation", "why_tests_cant": "The test of the examples runs the file once with one seed; a passenger whose messages all expire unheard, or who is never told that its driver came, needs an unlucky order of events.", "anchors": ["examples/cars/cars_sim.py: Driver", "examples/cars/cars_sim.py: Passenger", "examples/cars/cars_sim.py: City", "examples/cars/cars_sim.py: simulation"]}
{"id": "C246", "title": "Whole simulations of the example of drivers and passengers in the scheduler", "statement": "In the simulation of examples/cars/cars_sim.py with the scheduler TimedActivation: whatever chance decides, every state reached without an exception is the result of activations of agents that were the earliest due, every living agent is scheduled exactly once, at the time its coroutine asked for, and nobody else is, except that a passenger is scheduled once more right after it stopped; count_agents for passengers counts the scheduled ones. On a square grid with at least one driver no step raises; a simulation with a max_time ends; if max_time is later than the bound of C245 all passengers are at their destinations at its end; if it is later by 32 or more all drivers have stopped too, no agents are left, the clock is at infinity and total_earnings is the sum of all tips and of what the drivers earned. The simulation of the file ends with both passengers at home.", "quantifier": "all sizes of (square) grids, numbers and places of drivers and passengers, destinations, tips, random walks, shuffles and numbers of steps", "why_tests_cant": "The test of the examples runs the file once, with a few steps; whether the delays that coroutines return agree with the times at which the scheduler activates them can only be seen in long runs.", "anchors": ["examples/cars/cars_sim.py: City", "examples/cars/cars_sim.py: simulation", "examples/cars/cars_sim.py: Driver", "examples/cars/cars_sim.py: Passenger", "soil/time.py: TimedActivation.step"]}
{"id": "C247", "title": "Every simulation with PQueueActivation is a simulation with TimedActivation", "statement": "For user code that adds no agents during steps and asks for no negative delays: whatever the tie-breaking numbers of PQueueActivation are (random numbers or ids), there are orders of the agents due at the same time with which TimedActivation does exactly the same: after every number of steps, up to the first step that raises, everything that happened (who was activated when, in which order, with which delay, who died or was removed), the time, the number of steps, the agents, who is scheduled for when, and everything outside the scheduler agree; the same step raises or none does. So what holds of all simulations with TimedActivation holds of all simulations with PQueueActivation. With a max_time and any max_steps the outcomes agree as well: ended, raised, or still running. Without max_time there is a difference: when nothing is scheduled any more PQueueActivation stops the model, and TimedActivation does not.", "quantifier": "all user code without additions during steps and without negative delays (it may raise, remove agents, stop the model and read the time, the steps and the agents), populations, intervals, keys, numbers of steps, max_time and max_steps", "why_tests_cant": "The tests run a few simulations with each scheduler and do not compare them; the property relates all runs of one scheduler to the runs of the other one.", "anchors": ["soil/time.py: PQueueActivation.step", "soil/time.py: TimedActivation.step", "soil/time.py: PQueueActivation._schedule", "soil/time.py: TimedActivation._schedule", "soil/simulation.py: Simulation._run_model"]}
{"id": "C248", "title": "Whole simulations of the example of drivers and passengers with PQueueActivation", "statement": "In the simulation of examples/cars/cars_sim.py with the scheduler PQueueActivation, whatever chance decides and whatever the tie-breaking numbers are: every state reached without an exception is the result of activations of agents that were the earliest due; every living agent is scheduled exactly once, at the time its coroutine asked for, and nobody else is, except that a passenger is scheduled once more right after it stopped. On a square grid with at least one driver no step raises, and a simulation with a max_time ends as with TimedActivation (C246). Without max_time and max_steps it stops by itself, and then all passengers are at their destinations, all drivers have stopped, no agents are left, nothing is scheduled, and total_earnings is the sum of all tips and of what the drivers earned.", "quantifier": "all sizes of (square) grids, numbers and places of drivers and passengers, destinations, tips, random walks, tie-breaking numbers and numbers of steps", "why_tests_cant": "The test of the examples runs the file once, with the default scheduler and a few steps.", "anchors": ["examples/cars/cars_sim.py: City", "examples/cars/cars_sim.py: Driver", "examples/cars/cars_sim.py: Passenger", "soil/time.py: PQueueActivation.step", "soil/environment.py: BaseEnvironment.__init__"]}
{"id": "C249", "title": "TimedActivation and PQueueActivation have the same runs", "statement": "For user code that adds no agents during steps and asks for no negative delays, and agents that are added once: whatever the orders are in which TimedActivation activates the agents due at the same time, there are tie-breaking numbers in [0, 1), as random.random() draws them, with which PQueueActivation does exactly the same, step by step, up to the first step that raises, and the same step raises. So the runs that are possible with shuffling are the same for both schedulers, and what holds of all runs of one holds of all runs of the other. Without shuffling this is not so: TimedActivation then activates agents due at the same time in the order in which they were scheduled, PQueueActivation in the order of their ids.", "quantifier": "all user code without additions during steps and without negative delays, populations without repetitions, intervals, orders and numbers of steps", "why_tests_cant": "Which runs are possible is a statement about all random numbers; tests see the ones of a few seeds.", "anchors": ["soil/time.py: TimedActivation.step", "soil/time.py: PQueueActivation.step", "soil/time.py: PQueueActivation._schedule", "soil/time.py: OrderedTimedActivation"]}
{"id": "C250", "title": "No code around the scheduler can tell which one is used", "statement": "Take any code that calls schedule.step(), reads the clock, the steps, the agents, whether the simulation has ended and everything outside the scheduler, removes agents, stops the model and changes the rest of the world as it likes between the calls - a step of a model that is overridden, a Lockstepper, a loop of a user - but adds no agents; and user code of agents that adds no agents and asks for no negative delays. For all tie-breaking numbers of PQueueActivation there are orders of TimedActivation, and for all orders there are numbers in [0, 1), with which the code does the same around both: after any number of its actions its local variables, what it reads, the world, the log of activations and what is scheduled are the same, and it ends or raises at the same place. In particular any number of steps of a Lockstepper has the same outcomes around both, and its clock is exact around both. Code that adds agents can tell them apart, and so can a Lockstepper when there are no agents at all: around TimedActivation its step never returns, around PQueueActivation it does.", "quantifier": "all code around the scheduler, all user code of agents without additions and negative delays, populations, intervals, orders, tie-breaking numbers and numbers of actions", "why_tests_cant": "It is about all programs that use a scheduler and all random numbers.", "anchors": ["soil/time.py: TimedActivation.step", "soil/time.py: PQueueActivation.step", "soil/time.py: Lockstepper.step", "soil/environment.py: BaseEnvironment.step"]}
{"id": "C251", "title": "All ways to launch a simulation run the same simulation", "statement": "Simulation(**settings) accepts exactly the settings there are, gives every other field its default, and settles three fields: the name (the given one, otherwise that of the model), the source file (an absolute path) and the model (a class). sim.run(**settings) runs a simulation with exactly these settings and all others as they were, and the simulation itself without any; giving settings in several steps is giving all of them at once, the later ones winning. SomeModel.run(**settings) and soil.simulation.run(SomeModel, **settings) run the simulation Simulation(model=SomeModel, **settings). The name of a simulation that was given none is that of the model it runs. The examples launch their simulations with settings that exist.", "quantifier": "all models, settings, defaults, working directories, source files and sequences of settings", "why_tests_cant": "Tests launch a few simulations with a few settings; what matters is that no setting is lost or invented whatever the way of launching.", "anchors": ["soil/simulation.py: Simulation.__post_init__", "soil/simulation.py: Simulation.run", "soil/simulation.py: run", "soil/environment.py: BaseEnvironment.run", "examples/pubcrawl/pubcrawl_sim.py"]}
{"id": "C252", "title": "In whole simulations of the basic rabbits the population grows", "statement": "The simulation of the basic rabbits starts with a male, a female and the accident, all activated once per unit of time. Both are of the same age, and live until they reach their life expectancy. A female that mated gives birth when the gestation is over, a known number of steps after the mating and never before the maturity plus the gestation; her babies join the network, and the simulation goes on. After any number of steps the network and the schedule consist of the living rabbits. The simulation ends when its time limit is reached.", "quantifier": "all parameters, random numbers, orders of activation, limits and numbers of steps", "why_tests_cant": "Tests run one simulation with one seed, in which nobody happens to mate; a mating is an event of probability 0.001 per step.", "anchors": ["examples/rabbits/rabbits_basic_sim.py", "soil/time.py: TimedActivation.step", "soil/agents/fsm.py: FSM.step", "soil/simulation.py: Simulation._run_model"]}
{"id": "C253", "title": "Whole simulations with agents that choose their own timeouts run every agent at exactly its times", "statement": "In the example with custom timeouts, a scheduler step takes the clock to the next time that is a Fibonacci number or odd: after n steps the clock is at the n-th of these times, the Fibonacci agent has run at all Fibonacci numbers before it and the Odds agent at 0 and at all odd numbers before it, once each, in order and at no other times, and no step raises. A simulation with max_steps returns after exactly so many steps; one with max_time returns when all the times before the limit, and no others, have been served. In the example with random delays, the agent runs at the sums of the delays drawn (a delay of 0 counts as the interval), max_pongs + 1 times, and is then dead and removed; a simulation with max_time returns when the times before the limit have been served. All of this holds for both schedulers, whatever their tie-breaking.", "quantifier": "all orders of agents due at the same time, all tie-breaking keys, all delays drawn, all values of max_pongs, all limits and numbers of steps", "why_tests_cant": "Tests run the examples without looking at the times of activation; the claim is about every step of every run with either scheduler.", "anchors": ["examples/custom_timeouts/custom_timeouts_sim.py", "examples/random_delays/random_delays_sim.py", "soil/time.py: TimedActivation.step", "soil/time.py: PQueueActivation.step", "soil/simulation.py: Simulation._run_model"]}
{"id": "C254", "title": "Whole simulations of the example with a custom generator count every edge of the network twice", "statement": "GeneratorEnv creates its network with the custom generator and puts one counter on each of its n nodes; it raises only if there is no node, or if an edge is asked for in a network with one node. Whatever is drawn by the generator, for the nodes and for the order of the agents, a simulation returns after exactly max_steps steps. After k steps each of the n counters has run k times; from the first step on each has found n agents and as many neighbours as there are edges at its node, so that together they have counted every edge twice.", "quantifier": "all numbers of nodes and edges, all numbers drawn by the generator, for the nodes and for the orders, all numbers of steps", "why_tests_cant": "Tests run the example once without looking at the network or at the counters; the placement of the agents depends on random numbers and fails only for some of them.", "anchors": ["examples/custom_generator/generator_sim.py: GeneratorEnv", "soil/agents/CounterModel.py: CounterModel.step", "soil/agents/network_agents.py: NetworkAgent.__init__", "soil/environment.py: NetworkEnvironment.add_agents", "soil/simulation.py: Simulation._run_model"]}
{"id": "C255", "title": "Simulations of agents that change only themselves do not depend on the order or the scheduler", "statement": "If the step of every agent reads only the time, the number of steps, the number of agents and its own attributes, changes only the latter, and returns nothing, then no step raises, a simulation returns after exactly max_steps steps, and after every number of steps each agent is what it would have made of itself alone, with one turn at each of the times 0, interval, 2*interval and so on. So the result is the same with or without shuffling, whatever the order, with TimedActivation and with PQueueActivation, whatever the numbers that break ties. In particular this holds for populations of the classes Ticker, CounterModel and AggregatedCounter together in a network that does not change: after k steps each has counted k steps, a CounterModel has the number of its neighbours and of the agents, and an AggregatedCounter k times as many.", "quantifier": "all code of this kind, all numbers of agents, intervals, orders, tie-breaking keys and numbers of steps", "why_tests_cant": "Tests compare at most two runs with fixed seeds; independence of the order is a statement about all orders and both schedulers.", "anchors": ["soil/agents/CounterModel.py: Ticker, CounterModel, AggregatedCounter", "soil/time.py: TimedActivation.step", "soil/time.py: PQueueActivation.step", "soil/simulation.py: Simulation._run_model"]}
{"id": "C256", "title": "Simulations of the improved rabbits end at max_time", "statement": "Whatever the random numbers, the shuffles, the class attributes (with a positive sexual_maturity) and the number of rabbits that are born: as long as no exception escapes, the clock of the scheduler advances by at least 1/d in two steps, where d is the denominator of sexual_maturity (1 for a whole number); at the same time there are never more than two steps, the second one for the newborn. So a simulation with a max_time ends after at most 2*d*max_time + 1 steps, either by an exception or when the clock reaches max_time, and in the latter case no exception has escaped before. If the clock is infinite, no rabbit is alive. Without max_time and max_steps it never returns.", "quantifier": "all class attributes, random numbers, shuffles, limits and numbers of steps", "why_tests_cant": "New agents are due at the very time at which they are born, so that a bug (or another example) could keep the clock at the same time for ever; a test sees only finitely many populations.", "anchors": ["examples/rabbits/rabbit_improved_sim.py: Rabbit, Male, Female", "examples/rabbits/rabbit_improved_sim.py: RandomAccident.step", "soil/time.py: TimedActivation.step", "soil/simulation.py: Simulation._run_model"]}
{"id": "C257", "title": "A bounded simulation with births terminates", "statement": "Let the agents of a simulation always wait for at least some \u03b4 > 0, and let agents only be added that were never activated, by agents that were activated at an earlier time than the current one. Then a simulation with a max_time ends (it returns or raises), whatever happened to the scheduler before (at least one agent was added), and however many agents are added by each activation: no bound on the births is needed. The condition on the newborn cannot be dropped: if agents add one agent when they are activated for the first time, the clock stays at 0, and no simulation with a positive max_time ends. The improved rabbits of the examples satisfy the conditions.", "quantifier": "all agents (code and state), intervals, histories, limits, shuffles and numbers of births", "why_tests_cant": "The number of agents, and so of activations, before max_time is unbounded; a test stops after finitely many births.", "anchors": ["soil/simulation.py: Simulation._run_model", "soil/time.py: TimedActivation.step", "soil/time.py: TimedActivation.add", "examples/rabbits/rabbit_improved_sim.py: Female.pregnant"]}
{"id": "C258", "title": "The unit of time does not matter", "statement": "Soil fixes no unit of time. Measured in a unit that is c > 0 times smaller, a simulation is the same simulation: if the delays that the agents return, the default interval and max_time are multiplied by c, the same agents are activated in the same order with the same results, the world ends the same, after the same number of steps and in the same way (returned, raised or still running), and the clock, the queue and the times in the log are multiplied by c. This holds for TimedActivation and PQueueActivation, for every history and every simulation. The interval must be rescaled too: if it is not, the order of the activations changes.", "quantifier": "all agents (code and state), units, intervals, histories, limits, shuffles and tie-breakers", "why_tests_cant": "A relation between two runs of every program for every unit; comparing two runs of one program in two units tests one pair. With 0 meaning 'now' or 'default' in several places of the scheduler, a change of a comparison breaks it only for some delays.", "anchors": ["soil/time.py: TimedActivation.step", "soil/time.py: TimedActivation._schedule", "soil/time.py: PQueueActivation.step", "soil/time.py: PQueueActivation._schedule", "soil/simulation.py: Simulation._run_model"]}
{"id": "C259", "title": "The origin of the clock does not matter", "statement": "Delays are relative, so a simulation whose clock starts at T >= 0 instead of 0 is the same simulation, T later: the same agents are activated in the same order with the same results and the same world, every time on the clock, in the queue and in the log is T later, and with max_time + T it ends in the same way after the same number of steps. For TimedActivation this holds when no agent asks to be activated in the past and the interval is not negative; with delays into the past it is violated, because the time 0 counts as no time. For PQueueActivation it holds when no agents are added; it is violated when they are, because add passes the time as the flag replace.", "quantifier": "all agents (code and state), origins, intervals, histories, limits, shuffles and tie-breakers", "why_tests_cant": "A relation between two runs of every program for every origin. Tests start at time 0, which is the only time at which the special meaning of 0 does not show.", "anchors": ["soil/time.py: TimedActivation._schedule", "soil/time.py: TimedActivation.step", "soil/time.py: PQueueActivation.add", "soil/time.py: PQueueActivation.step", "soil/simulation.py: Simulation._run_model"]}
{"id": "C260", "title": "Which objects the agents are does not matter", "statement": "The schedulers never look into agents. If the agents are replaced by other objects (an injective renaming), every history and every simulation goes in the same way: the renamed agents are activated in the same order, at the same times, with the same replies; the queue, the agent set and the log are the renamed ones, and the world is the same. For PQueueActivation this holds if the agents keep their tie-breakers. The conditions cannot be dropped: if two agents become one object, the agent set loses one; and with ids as tie-breakers (the ordered PQueueActivation), exchanging two ids exchanges the order of the activations.", "quantifier": "all agents (code and state), renamings, intervals, histories, limits, shuffles and tie-breakers", "why_tests_cant": "A relation between two runs of every program for every renaming; a scheduler that kept agents in a hash set or compared them would pass most tests and fail it.", "anchors": ["soil/time.py: TimedActivation.step", "soil/time.py: TimedActivation.add", "soil/time.py: PQueueActivation._schedule", "soil/time.py: PQueueActivation.step", "soil/simulation.py: Simulation._run_model"]}
{"id": "C261", "title": "What the agents do not look at does not matter", "statement": "The schedulers and the loop of a simulation never look at the state of the agents and of the environment. If the agents of two programs give the same replies and perform the same scheduler operations in states that correspond to each other, and leave corresponding states (and the shuffles, or the tie-breakers of PQueueActivation, are the same), then after every history the two schedulers are equal (clock, queue, agents, log) and the states correspond, and simulations end in the same way. In particular, agents may take notes that they never read (logs, counters, collected data): the simulation is the one without the notes.", "quantifier": "all pairs of programs and correspondences between their states, histories, limits, shuffles, tie-breakers and notes", "why_tests_cant": "A relation between two programs with unboundedly many states; that a debugging aid does not change a simulation is usually observed, for one simulation.", "anchors": ["soil/time.py: TimedActivation.step", "soil/time.py: PQueueActivation.step", "soil/simulation.py: Simulation._run_model"]}
{"id": "C262", "title": "A longer simulation begins with the shorter one", "statement": "max_time and max_steps only decide when a simulation stops. If a simulation returned under some limits, the simulation with larger limits (or none) goes through the state in which the first one returned and continues from it like a simulation that starts there; so a simulation can be run in parts. If it raised, it raises at the same point under larger limits. If the simulation with the larger limits returns, the one with the smaller limits does, within as many steps. With the default scheduler, the log of the shorter simulation is a prefix of the log of the longer one.", "quantifier": "all environments and schedulers, limits, agents (code and state), states from which the simulation starts, and numbers of steps", "why_tests_cant": "A relation between two runs for every pair of limits and of every program; code that reads the limits (for instance to plan ahead) would violate it only for some of them.", "anchors": ["soil/simulation.py: Simulation._run_model", "soil/environment.py: BaseEnvironment.step", "soil/time.py: TimedActivation.step"]}
{"id": "C263", "title": "Idle agents do not matter", "statement": "An agent that does nothing and asks never to be activated again does not change a simulation with the ordered TimedActivation: with or without it, at any place among the agents that are added at the beginning, the simulation ends in the same way, after the same number of steps, at the same time, with the same world, the same other agents and the same events of the other agents in the same order. (There is another agent, the agents do not look at the agent set, and do not add the idle agent again.) When the order is shuffled it does matter: the idle agent takes a place in the first shuffle.", "quantifier": "all agents (code and state), populations and places of the idle agent, intervals and limits", "why_tests_cant": "A relation between two simulations of every program; a test compares two simulations of one.", "anchors": ["soil/time.py: TimedActivation.step", "soil/time.py: TimedActivation.add", "soil/simulation.py: Simulation._run_model"]}
