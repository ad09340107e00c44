# Formal model of RouteDNS – design

## Layout

* `lean/Verif/Model/*.lean` – the model: Lean definitions that follow the Go code function by function. Every definition cites
  the file and lines in `/repo`. Simplifications are stated in the same comment.
* `lean/Verif/Spec/*.lean` – per topic, what the properties say in words, written without the functions of the model. (Small
  specifications stand at the top of the file with the theorems instead.)
* `lean/Verif/Lemmas/*.lean` – helper lemmas. No claims are made about their meaning.
* `lean/Verif/Props/*.lean` – the property theorems and beside them `example`s: concrete cases that meet the hypotheses.
* `properties.jsonl` – the properties in English, `MANIFEST.json` – status and theorem names, `AXIOMS.txt` – the axioms each
  theorem of the manifest depends on, `seeded/LOG.jsonl` – the record of the tests with wrong programs.

## Trusted base

* The kernel of Lean 4.33, and of its standard axioms only `propext`, `Classical.choice` and `Quot.sound`; `AXIOMS.txt` lists them
  per theorem (made with `#print axioms`). No axioms of our own, no `sorry`, no `native_decide`, no `bv_decide`. Some examples and
  counterexamples on literals use `decide +kernel`, which adds no axiom.
* The correspondence between the Go text and the Lean definitions, made by reading. No part of the Go code was run.
* The Go runtime. Goroutines become step machines whose atomic steps are the regions between operations on locks, channels,
  atomics and the kernel; an execution is any sequence of steps. That the regions may be
  taken as atomic, because the code has no data races, is C106 (for the order of the Go memory model). Panics are a result of
  their own (`none`, `crash`), so theorems that say that a result exists say that there is no panic.
* Go strings and byte slices are byte lists (`Str = List UInt8`). `strings.ToLower` and `EqualFold` are ASCII case folding: names
  from the wire are ASCII in presentation form. Times are integers (nanoseconds, or seconds where the code uses seconds), clock
  readings are arbitrary inputs; where a theorem needs a clock that does not go backwards it says so. `int` is unbounded except where
  a property is about overflow; `float64` is idealised to rationals in the load balancer, except in C105, which has the rounding.
* A resolver is a function `Msg → ClientInfo → Res`, where `Res` is the Go pair `(*dns.Msg, error)` with both parts optional, or (for
  whole configurations, C76) a relation, so that state and chance are covered. Resolvers are taken not to change the query they get
  in place, except where the code in `/repo` does it and the property is about it (C43); for the elements in `/repo`, with messages in shared memory, this is C93.

### Libraries

Library functions are either parameters that the theorems quantify over, with the facts used as hypotheses, or modelled by their
documented behaviour:

| library | treatment |
|---|---|
| `miekg/dns` messages | modelled as records (`Model/Dns.lean`); `Pack`, `Unpack`, `Len`, `Truncate` are parameters with stated laws |
| `miekg/dns` NSEC3 `Match`/`Cover`, `RRSIG.Verify`, `DS`, `CanonicalName`, `IsSubDomain` | the first modelled over an arbitrary hash, signatures an arbitrary predicate, names modelled |
| `maphash`, `math/rand`, `time.Now` | arbitrary function, arbitrary draws, arbitrary readings |
| `net.IP`, `net.IPNet`, `net.SplitHostPort`, `net/url` host and port | modelled; `net.ParseIP` and full URL parsing are parameters |
| Go's name look-up (`net.Resolver`: `dnsPacketRoundTrip`, `exchange`) | modelled for C78 |
| `regexp` | a parameter for lists; for the fixed pattern of ODoH a matcher with a proof that it accepts exactly the pattern |
| `heimdalr/dag` | modelled by its documented behaviour |
| `encoding/base64` | modelled |
| `gopher-lua` | the stack discipline of calls and the argument checks are modelled; scripts are arbitrary |
| TLS, DTLS, QUIC, HTTP, HPKE, SOCKS5, MaxMind databases, Redis, file system, kernel sockets and namespaces | parameters or step machines whose behaviour the theorems quantify over |
| logging and metrics | left out (but see C64 and C92) |

### Code that is not modelled

`doc.go`, `version.go`, `errors.go`, the formatting of log lines, `netns_watch_other.go` and `xsocketserver_other.go` (other systems),
flag parsing in `cmd/routedns/main.go`, TOML decoding and merging of files, the metrics pages of `adminlistener.go`, and
of the clients the retry and keep-alive behaviour inside the HTTP and QUIC libraries.

## Plan per property

| id | what is modelled | how it is proved |
|----|------------------|------------------|
| C01 | memory backend over the pointer LRU with encoded records, operations as a history | invariant over histories + refinement to a key-value list |
| C02 | `find`/`insert` with an arbitrary hash | refinement C03, `matchesKey` exactness C05 |
| C03 | heap of nodes with prev/next, index map | representation predicate, every operation preserves it and simulates the abstract list |
| C04 | `insert`, `resize` | on the abstract list, transported by C03 |
| C05 | byte-level encoder and accessors | round trip by list arithmetic |
| C06 | `serialize`, `deserialize` | induction over the recency list |
| C07 | `storeInCache`, `Resolve` | case analysis, arithmetic |
| C08 | `answerFromCache` loop | induction over the label list; counterexample for escaped dots |
| C09 | Redis record codec | round trip, arithmetic |
| C10 | Redis key builder | injectivity by separator reasoning; counterexample for several ECS options |
| C11 | both shuffles | permutation of positions; rotation arithmetic |
| C12 | fail-rotate, sequential | induction over attempts |
| C13 | fail-rotate/fail-back as step machine | invariant |
| C14 | fail-back with timer goroutine | invariant + progress |
| C15 | round-robin counter | counting lemma |
| C16 | random group step machine | multiset invariant |
| C17 | load-balance loop | induction; permutation of remaining indices |
| C18 | load-balance statistics over rationals (floats are idealised) | invariant over histories |
| C19 | fastest over arrival orders | induction |
| C20 | fastest-tcp merge | permutation |
| C21 | rate limiter over histories | counting invariant |
| C22, C23 | dedup step machine and key | invariants; key injectivity with counterexamples |
| C24 | pipeline in-flight queue step machine | ownership invariant |
| C25 | TTL modifier | case analysis |
| C26, C27 | truncate-retry, collapse, minimise | case analysis, list lemmas |
| C28 | domain trie with nested maps | trie insertion/lookup vs. rule semantics |
| C29 | hosts database | induction over lines |
| C30 | bit tries | induction over bits |
| C31, C32 | MAC db, multi db, reload as step machine | case analysis, invariant |
| C33–C36 | block lists | case analysis, list filters |
| C37, C38 | router and route | list `find?` specification |
| C39, C40 | ECS/EDNS0 modifiers | list lemmas |
| C41 | padding arithmetic, message length as a parameter | arithmetic |
| C42 | DNS64 address layout | byte lists |
| C43, C44 | static responder over a heap of records, replace | case analysis, invariant |
| C45 | file system with volatile/durable layers and crash at any step | step relation, invariant |
| C46 | loaders over histories | invariant |
| C47 | chain building as a program over an adversarial resolver and a shared store | soundness against an inductive trust relation, for all interleavings |
| C48 | canonical ordering | order laws |
| C49, C50 | NSEC/NSEC3 checks against an abstract zone | soundness proof, counterexamples |
| C51 | key store as step machine | linearisability: the log of effects is a right sequential history |
| C52 | DNSSEC flag handling | case analysis |
| C53–C56 | listeners and clients; the DoQ connection as step machine | case analysis, invariant |
| C57, C66 | host-name check, default ports | characterisation, counterexamples |
| C58 | socket request codec, server loop, dialing with kernel parameters | round trip, resource accounting |
| C59 | watcher, supervisor and listener step machine | invariant, measure for progress |
| C60 | graph instantiation | induction; exact characterisation |
| C61 | prefetch counters | history invariant |
| C62, C63 | ODoH, drop handling | case analysis, counterexamples |
| C64 | syslog and query log | case analysis |
| C65 | DTLS read buffer | stream invariant |
| C67 | namespace switching on threads | invariant, counterexample |
| C68 | cache refresh | characterisation over histories |
| C69, C70 | location lists; reload and close as step machine | characterisation; invariant |
| C71–C73 | connection targets, names and TLS options of all clients | case analysis, exact characterisation |
| C74 | pool of script states and the call of a script | invariant; stack accounting |
| C75 | base64 of GET requests | round trip, characterisation |
| C76 | trees of all elements with relational semantics | induction over configurations |
| C77 | success test of groups | exact characterisation |
| C78 | bootstrap resolver under Go's look-up code | case analysis, invariant over attempts |
| C79 | from the sections of a configuration to the elements and what listeners send | meaning of sections as a relation, equivalence, induction over elements; uses C60 and C76 |
| C80 | script objects over a memory of addresses; every `__index`, `__newindex`, constructor and method | case analysis per type against tables of fields; frame theorems; invariant over sequences of operations |
| C81 | globals of a script through start, top level and registration | characterisation |
| C82 | stores of both cache backends over arrays, slices, a pool and a semaphore, as step machine | ownership invariant |
| C83 | SCAN/DEL loop beside arbitrary other clients, glob patterns by their laws | invariant under the SCAN contract |
| C84 | from listener section to socket, all protocols | case analysis, exact characterisation |
| C85 | the queries that reach servers through any composition of elements; rules in sections | induction over the ways; soundness of the relation against C76; uses C28–C30, C33, C34, C79 |
| C86 | `Start` and `Stop` of listeners as a step machine, with the contracts of the server libraries | invariants per kind; run invariants for what a `Stop` does; findings as theorems over all runs without `Stop` |
| C87 | the byte layout of inotify events, the list of subscribers, the waiting loop | induction over events against an encoder; projection to one subscriber; induction over looks |
| C88 | opening and closing the socket of the fd-server, any number of servers on one path | run invariant for servers that start one at a time; for abstract names without that; the mode by induction over digits |
| C89 | the connect loop over any results of system calls | induction over polls |
| C90 | the validator's result as the verdict of the validating element, in front of any elements | from C47 and C52 |
| C91 | the memory cache together with its file, over runs of the program with new hashes and options | run invariant on the origin of every entry and record |
| C92 | registration of counters, and what each element counts for one query, beside the models of the elements | injectivity of names; case analysis per query and induction over queries; run invariants for groups |
| C93 | `Resolve` of every element as a program on pointers to messages (call, copy, change in place, share with a goroutine, send over a channel), run by any number of goroutines in any order | logical relations over programs with notes on who relies on or owns which object, kept by every step; an explicit run for the finding |
| C94 | the programs of C93; de-duplication as a shared list of requests to join, wait for and finish; channels with the sends and receives of `fastest` | no endless run: a logical predicate on programs and a multiset order on goroutines; no halt: ghost notes on who owes what to whom, and descent along the configuration, since who is waited for works below who waits |
| C95 | the validator of C47–C49; a specification of honest zones: chain of DS and keys, proper denials of DS records; replies may be any that the zones allow, at any time | a predicate on programs, kept by any schedule: whatever the clock, the honest resolver and the honest key store return, the program ends with the stated result; findings from C47's soundness and from explicit worlds |
| C96 | the denial functions of C48, C49; a specification of what a server has to send for each kind of denial; the zone is any set of names with types | the converse of C48 and C49: the candidate the code looks for is the closest encloser, the covering test agrees with the canonical order; at the level of the validator with the program predicate of C95 |
| C97 | the machines of C14 and C16 with times: deadlines of the timer, wake-up times, a log | invariants over timed runs: the deadline is the latest failover the timer was told of plus the time; refinement: a timed run is a run of the untimed machine |
| C98 | what `instantiateGroup` and the constructors make of a decoded section: defaults, conversion of seconds and milliseconds to times that wrap at 2^63 ns | composed with the models of the elements, so that the statements are about what a rate limiter, group, cache or script group then does |
| C99 | the goroutines `for { sleep; work }` of lists and of the cache in memory with a clock, on top of the cache of C91; delays are a parameter | invariants over timed runs of any length |
| C100 | the programs of C93; a specification of costs, one rule for each kind of element | a potential: what has been asked plus what each goroutine may still ask never grows |
| C101 | the goroutines, channel and caller of a fastest-tcp probe as a step machine with a clock | invariant over all executions; a measure that every step decreases |
| C102 | the programs of C93 with a clock: time passes only when every goroutine rests, servers answer within their limits, queries come in at any moment | the notes of C94 with deadlines: a typing of programs by the time they are reached and the time they return, kept by every step and by the passing of time; then descent along the configuration, since who is waited for is not late |
| C103 | the pipeline of C24 with a clock: an infinite run of events and of time passing; timers exact, reads with their deadline, dialling and writing of any duration | what an event can do to a request, and the moment at which the clock passes the deadline; for silent connections an invariant over reader and writer with the number of writes; the finding by invariant over all continuations |
| C104 | the DoQ connection of C55 with a clock, arrival times, and the number of times the lock was taken | invariant: the time in the locked section against the number of handshakes behind, and the beginning of the section against the number of sections since the arrival; the finding by constructing the run for every number of calls |
| C105 | loadbalance.go with every float64 operation followed by an arbitrary rounding to nearest (numbers m·2^e with 53-bit m), products fused with additions or not | monotonicity and relative error of rounding; an invariant with slack 2^-48 that the contraction of the average absorbs; exactness of the sign of a difference; the predecessor of the length is nearer to the largest product; a rounding of this kind exists |
| C106 | Spec/Races: executions as sequences of lock, access, channel and go events of any number of goroutines, the happens-before order of the Go memory model, data race; each element as the code of its goroutines reduced to these events, branches and loops free | every variable has a plan (guarded by a lock; written by one goroutine under the lock; set once; published by closing a channel; never written; atomic); a checker of code against plans, proved sound for all executions, evaluated on each element |
| C107 | the same | the locks an element takes while holding others go up in a rank; the checker follows the locks held along every way through the code |
| C108 | logger.go over Go slices (array, length, capacity) with `append` and `slices.Clip`, slog's reading of arguments, the levels of the command line | refinement of a machine in which every logger has its own list of attributes |
| C109 | the ODoH client with a clock: calls, the lock, fetching, the key and its expiry; its connections as those of C71 and C72 | invariants: time against the number of calls that fetched before; the key against the history of fetches and failures; findings by constructing runs for every number of calls |
| C110 | the queries each element of a configuration gets over its life (Model/Gets), from the elements' `Resolve` and what they ask by themselves | induction on how a query gets to a server, with the modifiers passed so far; per modifier what it enforces and respects; `gets_asked` and `replies_only_got` tie it to the models of C76 and C85 |
| C111 | the replies of configurations (Model/Composition), where what is stored was a reply of the element behind (`RepliesIn`, `Stored`) | induction on the configuration: each element passes on records with the data they had; the lists by C35 and C36, the cache by C01 |
| C112 | the replies of configurations at times (`Timeline` in Spec/Fresh) | induction on the configuration, in general over episodes, caches and de-duplications still to come; each element keeps or lowers TTLs, the cache by C01 |
| C113 | what servers are asked (Model/Asks), with conditions on routers (Spec/Split) | induction on the way of the query, as for C85; routes by the functions of C37, C38 |
| C114 | the replies of whole configurations (Model/Composition) with verdicts of validations as a parameter; conditions on the configuration (Spec/Validated) | induction on the tree with a property of each record and its section (Props/Records), joined with C90 |
| C115 | histories of episodes (Model/History): what caches hold comes from earlier episodes | C76, C111, C112 and C114 for histories; replies grow with what there is (induction on derivations) |
| C116 | the programs of C93 with the verdicts of one limiter written down in the order of its lock (Model/Limits); reading the clock and taking the lock as two steps | budgets as in C100 that count servers and clients of interest, raised by each query let through; a potential argument over the windows; an explicit family of runs for the finding |
| C117 | kinds of replies (error, none, code) of the configurations of C76; what members of groups reply to other queries is part of what goes on around a query (`Around.replied`), and in a history comes from earlier episodes | inductive specification `Serves` of what each element promises; induction over it, with invariants of the group machines (distance to the working member, a working member is never put aside, the fail-back pointer stays), a pigeonhole argument for `fastest`, and C01 for the cache |
| C118 | the sections of a configuration file (C79), the elements they become (C117), histories (C115) and listeners (C53) | specification `Promises`, what sections promise given those they refer to; induction over what sections stand for (`Denotes`), inversion of `Means` for each type of group, then C117 and C53 |
| C119 | the configurations of C76 and C79 | recursive specification `Ready`; structural induction over configurations, building for each element a run in which only this query is there; queries passed on stay well-formed |
| C120 | files of C79, filters of C111, listeners of C53; conditions on sections in Spec/ReplyConfig (`BeforeFilter`, `BeforeAddresses`, `BeforeNames`) | induction on what sections denote: each element is `Filtered`; lists written in sections by C30 and C28-C31; then C115 for histories, and what listeners show (C53) has no further records |
| C121 | files of C79, validators of C114; conditions on sections in Spec/ReplyConfig (`BeforeValidated`) | the same with `Screened`, section by section |
| C122 | files of C79, ages of C112; numbers of caches and de-duplications behind each section in Spec/ReplyConfig (`Counted`) | the same with `Ages`, for all larger numbers at once |
| C123 | files of C79, queries of C110; ways in the file and the modifiers on them in Spec/PrivacyConfig (`Path`) | induction on `Denotes`: each `Way` of what a section stands for is a `Path` of the file; then the theorems of C110 |
| C124 | files of C79; sections before and behind routers in Spec/SplitConfig (`KeepsNames`, `KeepsClients`, `Away`) | induction on `Denotes` for `Apart`, `ApartFrom` and `NoWay` of C113, with distinct numbers for distinct servers |
| C125 | from resolver section to the sockets of every protocol and transport, with and without SOCKS5, over any answers of system, look-ups and proxy | case analysis through all dial paths; exact exception, shown to be one |
| C126 | files of C79, with the numbers of C98; costs written next to sections in Spec/LimitsConfig (`Pays`, `Budget`) | induction on `Denotes` for `Causes` of C116; one element for the section of the limiter by uniqueness of what ids stand for |
| C127 | files of C79; times and costs written next to sections in Spec/TimedConfig (`Schedule`, `Spending`) | induction on `Denotes` for `Takes` of C102 and `Costs` of C100; what C119 calls ready is what C94 needs |
| C128 | the end of `start` with `onClose`, and saves with their lock, as a step machine over any number of caches and files | run invariant: once the stop is past a cache, its file and any save under way are from after the signal; induction over the caches left for the end; restarts by `nothing_lost` of C91 |

## Findings

Where the code does not do what a user would expect, the exact behaviour is proved and a counterexample is a theorem. The main ones
(theorem names are in the manifest under the property):

* Cache (C07, C08, C10, C68): hardening treats an escaped dot as a label end; a message whose TTLs are all 2^32-1 gets the negative TTL;
  Redis keys of queries with several client-subnet options collide; the minimum TTL for refresh is exclusive although documented as
  inclusive; a refresh answered by SERVFAIL with a record replaces a good answer. A flushed or replaced response comes back when the program is killed
  and started again before the next save (C91).
* Groups (C14, C18–C20, C77): a fail-back timer that fires during a query can make it skip a good member; a penalty below the average
  rewards failures; a fastest group without members blocks for ever; fastest-tcp in its default mode gives the fastest record twice and loses
  another; a blocked alias counts as failure, contrary to the manual; a round-robin group without members panics.
* Limits and merging (C21–C24, C27, C61): the rate limiter forgets counts when the clock goes backwards, and also when queries at the end of a window get its lock in another order than they read the clock (C116), panics in the first window
  after the epoch, and with IPv4 prefixes over 32; de-duplication merges queries that differ in a zero subnet, in later subnet options or
  in the opcode; collapse answers ANY with nothing; minimise drops EDNS; the pipeline sends queries whose caller has gone.
* Lists (C28–C30, C33, C35, C69): `a..b` blocks everything below `b`, a blank line in a domain list blocks the root; words after a trailing
  comment sign in hosts files are blocked names; a hosts entry keeps 11 addresses, not 10; upper-case letters in regular expressions never match;
  IPv4-mapped networks do not match; responses other than NOERROR are not checked by the IP list; rule 0 matches unknown places.
* Modifiers (C38–C44): a route window across midnight never matches; ECS privacy widens shorter masks; EDNS0 option 12 makes the padding of queries
  panic; DNS64 with a /96 prefix keeps non-zero bits 64–71; a blank static record panics; replace does not restore names in other spelling.
* Files (C45, C06): after a crash of the machine a successful write can be undone; the cache file loses carriage returns.
* DNSSEC (C47–C52): see the statements in `properties.jsonl`.
* Listeners and clients (C53, C56, C62, C63): UDP listeners restricted to an IP version never truncate; the DoQ listener panics on a dropped
  query and writes a wrong length for messages of 65536 bytes and more; DoH does not check the ID; messages that are not responses are
  accepted; the ODoH client panics on an empty key list; the ODoH listener ignores allowed-net, cuts bodies to 4096 bytes and hands on broken-off responses.
* Connections (C71–C73): see the statements; server-name is ignored by QUIC and DTLS, DoT by name only checks the certificate for the address that was looked up;
  a SOCKS5 dialer with `resolve-local` whose first look-up fails sends the name to the proxy for good.
* System (C57–C60, C66, C67, C74, C78): empty inner labels and labels over 63 bytes pass the host-name check; a bare IPv6 address gets no
  default port; descriptors that come with a malformed response leak; `/proc/self/ns/net` is that of the main thread; a namespace event between the look
  and the subscription is lost for good; a group cannot name an element twice; a second return value of unsupported type wears the script
  states out; a bootstrap reply without response flag hangs a look-up.
* Configuration (C79): `allowlist-format` has no effect (rules of an allowlist in the file are read in the format of the blocklist); ECS and EDNS0 modifiers
  without operation, optional resolvers a type does not use, and `cache-size` beside a backend are accepted without effect; groups without members are accepted.
* Scripts (C80, C81): `extended_rcode` keeps only bits 4 to 7 of what is assigned (23 reads 16, 256 reads 0); an unset subnet address reads `<nil>` where
  records read nil; the length of a keep-alive option can be given to `new` only and never read; a record made without class has class 0;
  numbers for record data are cut to the width without error and `rcode` takes any integer; `set_edns0` appends an OPT record even when there is one; an OPT record reached
  through `extra` has no `udp_size`; an assignment to the field with the empty name of a record is ignored; numbers in strings are taken for questions but
  not for records; the top level of a script runs before the types exist, and loses its own globals of these names.
* Redis (C82, C83): asynchronous writes of one key can overtake each other; with the default empty prefix emptying the cache deletes the whole
  database; `?` and brackets in the prefix make it delete foreign keys and miss its own.
* Sockets of listeners (C84): `ip-version` is ignored by DoH, DoQ, ODoH, DTLS and admin listeners, and by DoT ones with a namespace or socket options; a DTLS
  listener for `localhost` listens on every address, and ignores `fwmark` and `bind-if`.
* What servers are asked (C85): prefetching and DNSSEC validation ask as clients without address, which lists of clients (and routes by source) behind them do not
  stop.
* Life of listeners (C86): listeners outside namespaces are started again every second when serving ends with an error. For DNS, DoT and DTLS this has no effect (the library takes the server for started, only `Shutdown` changes that), and with namespaces by path or socket options each attempt leaves a socket open; DoH and admin over QUIC leave the UDP socket open and find the address taken; DoQ does not return but repeats the failing `Accept` without a pause.
* Namespace events (C87): a queue overflow reported by the kernel is ignored, so a namespace whose event was lost stays in its old state until its next event.
* fd-server (C88): whatever is at the socket path and does not answer is deleted, also a regular file or an empty directory (Linux refuses connections to those just as to stale sockets); two servers that start at the same time can both serve, one of them unreachable, and stopping that one deletes the socket of the other; the socket accepts connections before its permissions are set; `--mode 0` has no effect.
* Counters (C92): an ODoH client never counts queries, and a failure to get the key or to encrypt, or a reply of another content type, is not counted at all; a DoQ listener counts a response
  also if it could not be sent, and its `drop` is the number of connections refused, not of queries dropped; the `available` of a router counts the calls of `Add`; clients
  that share a connection count an answer to another question as a response, though the caller gets an error. A random group counts every attempt as a fail-over, also the first; its gauge of available members is too high from a failure to the next query; the gauge of a fail-rotate group
  never changes; DoH listeners count neither refused clients nor failed queries as errors.
* DNSSEC refuses proper zones (C95): a zone with a single key of flags 257 for everything, one with a revoked key (any flags but 256 and 257), and a zone delegated from two or more labels up
  (the zone above is taken to be one label up) are bogus; so is everything unsigned below a name that exists only because of names below it, like an unsigned `x.co.jp` when `jp` has nothing at `co.jp`.
* DNSSEC refuses proper denials (C96): in a zone with NSEC, that a name with nothing but names below it has no records of a type (`nsecProvesNODATA` wants a record of the name itself or of its wildcard); and every NSEC3 denial in the root zone (`nsec3Match` of the library wants a zone with a label)
* Settings (C98): times wrap around at 292 years, so that a failure penalty of 300 years is none; a `backend` section without a type is refused although config.go:92 says the type defaults to memory.
* Upkeep (C99): a negative `save-interval` is accepted, and the cache is then written to its file again and again without a pause (`time.Sleep` returns at once); the same goes for `gc-period`.
* Fail-back (C97): a failover at the very moment the reset timer is due is undone at once (failback.go:155-170: `select` takes the expired timer although a reset is pending), so the group is back at its first member although another failed just now.
* `fastest` group without members (C94): the configuration accepts it, and a query given to it waits for a message nobody sends; the goroutine and the client are left for ever.
* Messages in memory (C93): with a `fastest` group below de-duplication or a cache below a replace element, a member of the group that starts late asks its server for the name the replace element was to
  hide: the reply has the question section of the query, the replace element puts the old name back there, and the goroutine copies the query only when it runs.
* Connecting (C89): a signal during the wait starts the time limit anew.
* ODoH (C109): fetching the target's key holds the lock and has no time limit, so all queries can wait without end; with `n` queries at once to a target that cannot be
  reached the last fails after `n` attempts; a failed refresh drops the old key; `bootstrap-address` and `server-name`, meant for the proxy, are used for the target as well when its key is
  fetched (over QUIC the name is always the proxy's); `socks5-address` is ignored.
* Modifiers (C110): `IsEdns0` finds the last OPT record; in a query with two (listeners accept that) the client subnet in the first one is not deleted, changed or seen.
* Response blocklists (C111): a list of IPv4 addresses in front of DNS64 lets the addresses through inside IPv6 addresses (it has to be behind); de-duplication in front of a client blocklist
  shares an answer with a client on the list; answers cached before an address got on the list are served until they expire if the cache is in front of the list.
* Freshness (C112): each cache counts whole seconds since it stored a response, so that a TTL may come out of `n` caches unchanged after almost `n` seconds; with `ttl-min` (or `success-ttl-min` of
  fastest-tcp) there is no bound at all, as caches in front of it count from the raised TTL.
* Routers (C113): names in capitals pass a route whose expression has no `(?i)` (the documentation says so, the example configurations for internal names leave it out); prefetching in front of
  a router that looks at clients asks the servers of other clients.
* Validators (C114): responses with codes other than 0 and 3 pass with whatever records they have.
* Groups (C117): REFUSED and NOTIMP always count as failures, and with `servfail-error` or `empty-error` so do SERVFAIL and NXDOMAIN, although they may be proper answers to that query. In a random group one client who asks something that all servers refuse takes all members out of the group, and for `reset-after` (60 s) all clients get errors although all servers work (`random_one_query_outage`). With `empty-error` a proper NXDOMAIN is replaced by an error if the server asked after it is down (`empty_error_loses_nxdomain`).
* Sockets towards servers (C125): with `netns`, connections over TCP leave from the namespace the program was started in when Go's dialer looks up the name itself and gets addresses of
  both families, as it then dials in goroutines of its own: for a SOCKS5 proxy given by name together with `fwmark` or `bind-if` always, for servers when the look-up before failed.
  `socks5-address` is ignored without a word by DoQ, DTLS, ODoH and by DoH with transport `quic`. The requests of an ODoH listener in proxy mode and the probes of
  `fastest-tcp` use neither namespace nor options (by inspection).
* Stopping (C128): two caches with the same file name write over each other, and at the next start both read what the last one saved.

Noticed, not formalised: the number of entries of a Redis cache is that of the whole database; the admin listener ignores allowed-net; the ODoH key fetch ignores the HTTP status; DoQ responses are not padded; the
default local address of DoQ and DoH3 (0.0.0.0) cannot reach IPv6 servers; a static allowlist of blocklist-v2 is read with the format of the
blocklist; dialing DoT has no time-out; doc/configuration.md says
that ODoH listeners without `odoh-mode` handle proxy requests, and a few lines on that they do not (they do not, C62).
