{"id": "C01", "title": "Cached answers are never stale and are aged exactly", "statement": "Whatever sequence of stores, lookups, evictions, garbage collections, flushes and capacity evictions happened before, if the in-memory cache serves an answer at time t then that answer was stored by an earlier store whose query has the same cache key (name ignoring ASCII case, type, class, last ECS address and prefix, DO, CD); t is not after the expiry given at that store; and every non-OPT record in the served message equals the stored record with its TTL lowered by exactly the whole seconds spent in the cache, the result being at least 1.", "quantifier": "all histories of cache operations, all clock readings (the clock may jump), all queries, all stored messages, all hash functions", "why_tests_cant": "a unit test checks a handful of store/lookup pairs; staleness and cross-key leaks appear only for particular interleavings, capacities, hash collisions and clock values", "anchors": ["cache-memory.go: memoryBackend.Store/Lookup/Evict/Flush/startGC", "lru-cache.go", "cache.go: ageCachedAnswer, cacheAge"]}
{"id": "C02", "title": "A cache hit always comes from the same question, even under hash collisions", "statement": "For every hash function, including a constant one, a lookup either misses or returns what was last stored under a key identical in every field; a collision can only turn a hit into a miss.", "quantifier": "all hash functions, all keys, all histories", "why_tests_cant": "tests cannot make a 64-bit seeded hash collide", "anchors": ["lru-cache.go: addKey, find, insert", "cache-blob.go: matchesKey"]}
{"id": "C03", "title": "The pointer-linked LRU implements the abstract recency list", "statement": "The doubly linked list with sentinels plus hash index behaves exactly like a list of entries ordered by last use: get moves the entry to the front, add replaces in place or inserts at the front, delete removes only that entry, and the structure stays a well formed doubly linked list whose node set is the index.", "quantifier": "all sequences of operations, all capacities, all hash functions", "why_tests_cant": "pointer corruption shows up only after specific interleavings of touch/unlink on neighbours", "anchors": ["lru-cache.go: newLRUCache, addKey, insert, unlink, find, touch, delete, resize, reset, deleteFunc"]}
{"id": "C04", "title": "Cache capacity is never exceeded and only the least recently used entries are evicted", "statement": "With a positive capacity the number of entries never exceeds it after any operation, and whenever an insertion evicts entries they are those with the oldest last use; with capacity zero or negative nothing is ever evicted by insertion.", "quantifier": "all histories, all capacities (Int)", "why_tests_cant": "needs every history, not a sample", "anchors": ["lru-cache.go: insert, resize"]}
{"id": "C05", "title": "Cache record encoding round-trips and its key comparison is exact", "statement": "For every key and metadata that is accepted by the encoder, decoding the stored bytes gives back the same key, timestamps, prefetch flag and message bytes; the stored record matches a key if and only if it was stored under that key; encoding fails exactly when a name or ECS string exceeds 65535 bytes.", "quantifier": "all keys, timestamps, flags and message byte strings of any length", "why_tests_cant": "infinite input space; off-by-one in offsets only shows for specific lengths", "anchors": ["cache-blob.go"]}
{"id": "C06", "title": "Saving the cache to a file and loading it restores the same cache", "statement": "Serialising the cache and deserialising into an empty cache of the same capacity yields the same entries in the same recency order, for every reachable cache; undecodable records are skipped without affecting the rest.", "quantifier": "all reachable caches, all capacities", "why_tests_cant": "order and eviction interplay over all sizes", "anchors": ["lru-cache.go: serialize, deserialize, toCacheBlob", "cache-memory.go: writeToFile, loadFromFile"]}
{"id": "C07", "title": "Cache lifetime policy", "statement": "A response is put in the cache only if it is not truncated and has RCODE NOERROR, NXDOMAIN, REFUSED, NOTIMP, FORMERR or SERVFAIL; its lifetime is the lowest TTL of its records (the configured negative TTL if it has none), at most 300 seconds for SERVFAIL, and never more than a configured per-RCODE limit.", "quantifier": "all responses, all option values", "why_tests_cant": "code, TTLs of any number of records, and four options combine; the boundaries matter", "anchors": ["cache.go: Resolve, storeInCache, minTTL"]}
{"id": "C08", "title": "NXDOMAIN hardening only answers for names below a cached NXDOMAIN", "statement": "With hardening enabled, a synthesised NXDOMAIN is given only if the exact name is not cached and some strictly higher name (not the root) is cached with NXDOMAIN for the same type, class, DO, CD and ECS and no closer name has another cached answer.", "quantifier": "all query names and cache contents", "why_tests_cant": "all names and label structures, including escaped dots", "anchors": ["cache.go: answerFromCache"]}
{"id": "C09", "title": "Redis cache record encoding round-trips and rejects foreign formats", "statement": "Decoding what was encoded returns the flag, the whole-second timestamp and the message; shorter or different-version records are rejected, and ageing with the truncated timestamp never yields a TTL larger than the exact one.", "quantifier": "all records", "why_tests_cant": "the decoder gets arbitrary byte strings from a shared server", "anchors": ["cache-redis.go: encodeCacheAnswer, decodeCacheAnswer"]}
{"id": "C10", "title": "Redis cache keys separate different questions", "statement": "Two queries that carry at most one client-subnet option get the same Redis key only if they agree on name (ignoring ASCII case), class, type, CD, DO and ECS network. (With several subnet options in one query this fails, and a counterexample is proved.)", "quantifier": "all pairs of queries", "why_tests_cant": "injectivity is a statement about all pairs of queries; collisions have to be constructed on purpose", "anchors": ["cache-redis.go: keyFromQuery"]}
{"id": "C11", "title": "Answer shuffling only permutes address records", "statement": "Both shuffles leave every non-address record at its position and rearrange the A/AAAA records among their own positions; with round-robin, over any n consecutive servings of an answer with n address records each address is first exactly once.", "quantifier": "all answers, all random choices, all read counts", "why_tests_cant": "all permutations of all answers, and fairness over any number of servings", "anchors": ["cache.go: AnswerShuffleRandom, AnswerShuffleRoundRobin"]}
{"id": "C12", "title": "Fail-over groups return a good answer whenever some member would give one (no concurrent queries)", "statement": "If no other query interferes, fail-rotate tries members cyclically from the active one and returns the first successful answer; it fails only if every member failed, and then returns the last tried member's result; afterwards the active member is the one that answered.", "quantifier": "all group sizes, all member behaviours, all starting positions", "why_tests_cant": "all group sizes and failure patterns", "anchors": ["failrotate.go", "resolver.go: isSuccessResponse"]}
{"id": "C13", "title": "Fail-over state stays consistent under any interleaving", "statement": "Under any interleaving of any number of queries, the active index is always a valid member, it advances at most once per failure report and only if the failing member is still the active one, and a query makes at most N attempts.", "quantifier": "all schedules of any number of concurrent queries", "why_tests_cant": "schedules cannot be enumerated by tests", "anchors": ["failrotate.go: Resolve, current, errorFrom", "failback.go"]}
{"id": "C14", "title": "Fail-back always returns to the first resolver", "statement": "In the fail-back group, whenever the active resolver is not the first one, the reset timer is armed or a failure signal that will arm it is on its way; once no more failures happen the timer fires and the first resolver becomes active again. With a reset time of zero, every query tries the resolvers in listed order.", "quantifier": "all schedules of queries and timer events", "why_tests_cant": "timer/query races", "anchors": ["failback.go: errorFrom, startResetTimer, current"]}
{"id": "C15", "title": "Round-robin is exactly fair", "statement": "In any interleaving, of any k consecutive queries every one of the N members receives floor(k/N) or ceil(k/N) of them.", "quantifier": "all interleavings, all k, all N", "why_tests_cant": "any number of concurrent queries, and the counter's whole history", "anchors": ["roundrobin.go: Resolve"]}
{"id": "C16", "title": "Random group loses no resolver", "statement": "At every moment the active members plus those waiting for re-activation are exactly the configured members (as a multiset); a query ends only with a success or when no member is active, and a failed member is not picked again until re-activated.", "quantifier": "all schedules, all random picks", "why_tests_cant": "members move between two sets at times chosen by timers and queries", "anchors": ["random.go"]}
{"id": "C17", "title": "Load-balance group tries every member at most once", "statement": "A query is sent to each member at most once, a success is returned as soon as one occurs, failure is returned only if all members failed; the picked position is always valid whatever the weights and random draws.", "quantifier": "all sizes, all weights, all random draws, all member behaviours", "why_tests_cant": "the choice depends on weights and random draws; a draw at the very end of the range is not hit by tests", "anchors": ["loadbalance.go: Resolve, pick"]}
{"id": "C18", "title": "Load-balance statistics never reward failures", "statement": "A failure to which no penalty is applied (none configured, or fewer than two failures in a row) never lowers a member's average response time or raises its weight (a configured penalty below the average does, which is proved as a counterexample); the first failure seeds at least the baseline; a success after an inflated average resets it to the measured time; all averages stay at least the minimum sample and between the smallest and largest sample seen.", "quantifier": "all histories of successes and failures", "why_tests_cant": "averages depend on the whole history of results, and boundaries between penalty and average are hit only by particular ones", "anchors": ["loadbalance.go: updateOnSuccess, updateOnFailure"]}
{"id": "C19", "title": "Fastest returns the first good response", "statement": "For every arrival order, fastest returns the first response that is neither an error nor SERVFAIL, and if none is good returns the last one to arrive; it always terminates for a non-empty group.", "quantifier": "all arrival orders and behaviours", "why_tests_cant": "arrival order is decided by the scheduler", "anchors": ["fastest.go"]}
{"id": "C20", "title": "TCP probing only reorders probed address records", "statement": "fastest-tcp only reorders address records of the type asked for and raises their TTL: waiting for all probes, the records that answered come first in order of arrival, then the others, and nothing is lost or added, records of other types keep their places; taking the first result, the fastest comes first. In that mode the code gives the fastest twice and loses the last probed record, unless the fastest is the first or the last of them. If a probe fails, or there is nothing to choose, the answer is passed on unchanged.", "quantifier": "all answers with any number of records, all orders in which probes finish", "why_tests_cant": "the result depends on the order in which concurrent probes finish, and losing a record needs at least three addresses and a winner in the middle", "anchors": ["fastest-tcp.go"]}
{"id": "C21", "title": "Rate limit: at most N queries per client network and window", "statement": "In every history where the clock readings do not decrease in the order in which queries get the lock (see C116 for others), starting after the first window since the epoch and with prefix lengths that fit the address, of the queries from one client network in one fixed window the first `Requests` are forwarded and all others go to the limit resolver or are dropped; other clients' queries do not count against it.", "quantifier": "all histories, all client addresses and prefixes", "why_tests_cant": "window boundaries and any number of clients in any order", "anchors": ["rate-limiter.go"]}
{"id": "C22", "title": "Request de-duplication answers every caller with its own id and question", "statement": "Under any interleaving, every caller gets the result of an upstream query for the same key, which was still registered as in flight when the caller arrived (or which the caller itself made), carrying the caller's own ID and question; at most one upstream query per key is in flight; no caller waits forever if upstream queries terminate.", "quantifier": "all schedules of any number of callers", "why_tests_cant": "schedules", "anchors": ["request-dedup.go"]}
{"id": "C23", "title": "De-duplication never merges different questions", "statement": "Two callers share an upstream query only if their queries agree on name (ignoring ASCII case), type, class, DO, CD and first client-subnet option, when such options carry a non-zero address of their family. (Zero addresses, unknown families and further subnet options are not told apart; counterexamples are proved.)", "quantifier": "all pairs of queries", "why_tests_cant": "injectivity is a statement about all pairs of queries; collisions have to be constructed on purpose", "anchors": ["request-dedup.go: dedupKey"]}
{"id": "C24", "title": "Pipelined connection matches responses to the right query", "statement": "Under any interleaving of sends, responses (in any order, duplicated, unsolicited), timeouts and connection loss, a caller receives only a response whose question matches its own, with its own ID restored; no two outstanding queries share a wire ID; every caller eventually gets a result.", "quantifier": "all schedules and server behaviours", "why_tests_cant": "schedules", "anchors": ["pipeline.go"]}
{"id": "C25", "title": "TTL modifier limits", "statement": "After the TTL modifier every non-OPT record has TTL at most the maximum and, if the minimum does not exceed the maximum, at least the minimum; values already in range (without a select function) are unchanged; the select functions set all records to the lowest / highest / average / first / last value before limiting; nothing else changes.", "quantifier": "all messages and limits", "why_tests_cant": "record values, limits and select function combine without bound, and the average can overflow", "anchors": ["ttl-modifier.go"]}
{"id": "C26", "title": "Truncated answers are retried", "statement": "The truncate-retry element returns the retry resolver's answer exactly if the first answer was truncated, otherwise the first answer; it never retries more than once.", "quantifier": "all upstream behaviours", "why_tests_cant": "every combination of results and errors of both resolvers", "anchors": ["truncate-retry.go"]}
{"id": "C27", "title": "Response collapse and minimise keep the answer", "statement": "Collapse of a NOERROR answer keeps exactly the records of the asked type and class, in order, renamed to the asked name, and replies with the configured code if none is left; minimise keeps header, question and answer section and drops all authority and additional records, including EDNS.", "quantifier": "all answers", "why_tests_cant": "alias chains of any length in any order", "anchors": ["response-collapse.go", "response-minimize.go"]}
{"id": "C28", "title": "Domain blocklist matches exactly the listed names", "statement": "For every rule list that loads, a query name is matched iff some rule is the name itself (plain), an ancestor-or-equal (leading dot) or a strict ancestor (leading *.); case and trailing dot are ignored; matching is independent of rule order. (Lines with an empty label between others are excepted: they block everything below that point.)", "quantifier": "all rule lists and names", "why_tests_cant": "names and rule lists are unbounded; over-blocking shows only for names nobody tested", "anchors": ["blocklistdb-domain.go"]}
{"id": "C29", "title": "Hosts-file blocklist", "statement": "A hosts-format list blocks exactly the listed names, and answers with the addresses listed for them in order, at most 11; reverse lookups are matched exactly if the address is listed and give the listed names. A regular-expression list matches exactly if one of its expressions matches the lower-case name.", "quantifier": "all hosts files, expressions and queries", "why_tests_cant": "lists, names and addresses are unbounded, and the order of lines matters", "anchors": ["blocklistdb-hosts.go", "blocklistdb-regexp.go"]}
{"id": "C30", "title": "IP blocklist matches exactly the listed networks", "statement": "An address is matched by the CIDR list iff it lies in one of the listed networks, for IPv4 and IPv6, regardless of insertion order and overlap; a line with an address alone names the network of this address only, comments and blank lines name none, and a list loads exactly if every other line is a network. The network reported is one the address lies in, and none that is listed is wider. (Finding: networks written in IPv4-mapped form are matched wrongly.)", "quantifier": "all lists of networks and all addresses", "why_tests_cant": "2^128 addresses times all lists, in every order", "anchors": ["cidr-db.go", "ip-blocklist-trie.go"]}
{"id": "C31", "title": "MAC blocklist matches exactly the listed hardware addresses", "statement": "A query is matched iff it carries the EDNS MAC option with one of the listed addresses; lines are accepted iff they show a six-byte hardware address.", "quantifier": "all queries and lists", "why_tests_cant": "all options and byte strings", "anchors": ["mac-db.go"]}
{"id": "C32", "title": "Combined lists are the union and survive failed reloads", "statement": "A multi-list matches iff one of its members matches; a failed reload of any list leaves the previously loaded data in force; a list that was closed on replacement is never used again, whatever the interleaving of queries and reloads.", "quantifier": "all lists, all reload outcomes", "why_tests_cant": "reload histories", "anchors": ["blocklistdb-multi.go", "ip-db-multi.go", "blocklist.go: refreshLoop"]}
{"id": "C33", "title": "Query blocklist: allowed names always pass, blocked names never reach upstream", "statement": "A query whose name matches the allowlist is always forwarded; otherwise a matching name is never forwarded to the normal resolver: it is answered locally (spoofed address, PTR names, or NXDOMAIN with an EDE) or sent to the blocklist resolver; a non-matching query is forwarded unchanged.", "quantifier": "all queries, all lists", "why_tests_cant": "a policy is about the query that gets past it; a test tries some names", "anchors": ["blocklist.go"]}
{"id": "C34", "title": "Client blocklist", "statement": "The client address looked at is the address of the client or, if use-ecs is set and the query has a client-subnet option, the address in the first such option. A query whose address is on the list is refused, or goes to the alternative resolver if there is one, and never to the normal one; every other query, also one of unknown address, is forwarded unchanged.", "quantifier": "all queries, clients, lists and resolvers", "why_tests_cant": "a policy is about the query that gets past it; tests try some addresses and options, not all combinations of source, option and list", "anchors": ["client-blocklist.go"]}
{"id": "C35", "title": "Response IP blocklist: no blocked address ever reaches the client", "statement": "Whatever the upstream answers, a successful response that is delivered holds no A/AAAA record with an address the list objects to, in any section (inverted: with an address that is not listed); responses without such records pass unchanged; in filter mode exactly these records are taken out and all others kept in order.", "quantifier": "all answers and lists", "why_tests_cant": "what matters is the one record in one section that slips through", "anchors": ["response-blocklist-ip.go"]}
{"id": "C36", "title": "Response name blocklist", "statement": "A response that names something on the list in a CNAME, MX, NS, PTR, SRV, SVCB, HTTPS, TXT or SOA record of any section is replaced by a denial or the answer of the blocklist resolver; all other responses pass unchanged.", "quantifier": "all answers", "why_tests_cant": "what matters is the one record in one section that slips through", "anchors": ["response-blocklist-name.go"]}
{"id": "C37", "title": "Router picks the first matching route", "statement": "A query goes to the resolver of the first route all of whose conditions hold, and to no other; if none matches the router reports an error.", "quantifier": "all routers, queries, clients, times", "why_tests_cant": "routes combine without bound and order matters", "anchors": ["router.go", "route.go"]}
{"id": "C38", "title": "Route conditions mean what the configuration says", "statement": "A route matches iff every given condition holds (type, class, name, source network, ECS, weekday, time window, listener, DoH path, TLS server name); inverting negates exactly; time windows are half open.", "quantifier": "all conditions, queries, times", "why_tests_cant": "ten kinds of conditions combine, with inversion, wrap-around of time windows and absent values", "anchors": ["route.go"]}
{"id": "C39", "title": "ECS modifiers", "statement": "The ECS add function leaves exactly one client-subnet option: the given address masked to the prefix; delete leaves none; privacy never leaves more address bits than configured; other options are untouched.", "quantifier": "all queries and options", "why_tests_cant": "all option lists, prefix lengths and both families; privacy is lost at single lengths", "anchors": ["ecs-modifier.go"]}
{"id": "C40", "title": "EDNS0 option modifier", "statement": "Add leaves exactly one option with the given code and data; delete leaves none with that code; other options keep their order.", "quantifier": "all queries", "why_tests_cant": "all option lists, in any number and order", "anchors": ["edns0-modifier.go"]}
{"id": "C41", "title": "Padding hides lengths", "statement": "Padded queries and responses have a packed length that is a multiple of the block size, or the maximum the client can take; so two messages of different content in the same block have the same length; padding never pushes a response over that maximum; stripping removes all padding and nothing else.", "quantifier": "all messages", "why_tests_cant": "lengths decide; equality of lengths is a statement about pairs of messages of any content", "anchors": ["padding.go"]}
{"id": "C42", "title": "DNS64 addresses embed the IPv4 address per RFC 6052 and can be recovered", "statement": "For every allowed prefix length and IPv4 address the synthesised IPv6 address starts with the prefix, has bits 64–71 zero (for prefixes shorter than 96 bits) and yields the IPv4 address back; synthesis happens only when no usable AAAA exists.", "quantifier": "all prefixes and addresses", "why_tests_cant": "2^32 addresses times all prefixes of six lengths", "anchors": ["dns64.go"]}
{"id": "C43", "title": "Static responder answers as configured", "statement": "The static responder returns exactly the configured records with the query's ID and question, the answers under the name asked for, and the configured code and flags; a configuration whose records cannot be read is rejected; whatever happens to the records of responses already given out, the next query gets the configured records, and a response given out only changes by writes to itself.", "quantifier": "all configurations, all queries, all histories of queries and writes to responses", "why_tests_cant": "sharing of records shows only after a particular history of changes to earlier responses", "anchors": ["static.go", "static-template.go", "message.go: copyRRs"]}
{"id": "C44", "title": "Name replacement is undone in the response", "statement": "The replace element forwards the query with only the name rewritten, and restores the original name in the question and in the answer records that carry exactly the rewritten name; nothing else in the response is changed, and errors and drops are passed back.", "quantifier": "all queries and rules", "why_tests_cant": "rewriting rules and record lists are unbounded, and only exact inversion keeps answers valid", "anchors": ["replace.go"]}
{"id": "C45", "title": "Atomic file write survives a crash at any point", "statement": "Whatever happens at whatever point - an error of any file operation, a crash of the program, a crash of the machine that loses any unsynced data and directory changes - the file holds its complete old content or the complete new content, never a part or a mixture. An error leaves the old content and no temporary file behind (as far as it can be removed). Permissions are kept. Stale temporary files are removed at the next start and no other file is touched. (Finding: after a crash of the machine the old content may be back although the write had succeeded, because the directory is not synced.)", "quantifier": "all contents, all sets of other files, all failing operations, all crash points, all ways to lose unsynced data", "why_tests_cant": "tests cannot crash the machine between two system calls, nor choose what the disk kept", "anchors": ["atomicfile.go"]}
{"id": "C46", "title": "List loading never replaces good data with bad", "statement": "With allow-failure, a loader returns the last successfully loaded rules when loading fails and an error only if the option is off; a cached copy on disk is only used for the first load.", "quantifier": "all histories of load outcomes", "why_tests_cant": "depends on the history of failures and successes", "anchors": ["blocklistloader-http.go", "blocklistloader-local.go"]}
{"id": "C47", "title": "DNSSEC: nothing bogus is served when validation is on", "statement": "With validation enforced, an answer is passed on as validated only if every record set in its answer section that is not itself a signature has a signature made by a key of a zone above the owner, and that key is linked by signed DNSKEY and DS record sets, zone by zone, to a configured anchor; if the answer section is empty, only if the records that prove the absence are signed in this way. An answer is let through unvalidated only if a signed proof shows that there is no DS record at a delegation on the way. If all zones above are honest, then validated records are published ones and validated denials are true. Without anchors nothing is validated. Validation ends. All this whatever the resolver returns, however concurrent validations on the same key store interleave, and in whatever order maps are iterated. (Findings: an answer of signatures only is accepted; question, code and authority section are not looked at if there is an answer; DS records of another owner are accepted; keys outlive their signatures; anchors below the root have no effect; an empty reply panics; names with an escaped dot have the wrong parent.)", "quantifier": "all upstream behaviours (adversarial and changing), all zones, all interleavings, all signature schemes, all clocks that do not go backwards", "why_tests_cant": "the upstream is an adversary: any message may come back at any step, and cached keys make one validation depend on all earlier and concurrent ones", "anchors": ["dnssec/validator.go", "dnssec.go"]}
{"id": "C48", "title": "DNSSEC canonical name order is a strict total order", "statement": "The comparison used to check denial ranges is the RFC 4034 canonical order: total, transitive, antisymmetric up to ASCII case.", "quantifier": "all names", "why_tests_cant": "order laws are statements about all pairs and triples of names, including escaped and unequal label counts", "anchors": ["dnssec/denial_existence.go: canonicalNameCmp, canonicalLabels"]}
{"id": "C49", "title": "DNSSEC: NSEC denials are only accepted for names that do not exist", "statement": "If all NSEC records shown are those of one zone, an accepted NXDOMAIN proof implies that the zone has no records to answer the name with: neither at the name nor by a wildcard; an accepted NODATA proof implies that the zone has no record of the type (nor an alias) at the name, or at the wildcard that would answer it. (Findings: the records of a parent zone are accepted for names of a child zone; empty non-terminals count as non-existing; the wildcard below the root is not looked at.)", "quantifier": "all zones, all subsets of their NSEC records, all names and types", "why_tests_cant": "a denial is accepted or not for a combination of name, several records and a zone that tests have to invent; unsound cases are combinations nobody thought of", "anchors": ["dnssec/denial_existence.go"]}
{"id": "C50", "title": "DNSSEC: NSEC3 denials are only accepted for names that do not exist", "statement": "The same with NSEC3 records, for every hash function without collisions on the names involved, where opt-out spans prove nothing about unsigned delegations; a name equal to the owner of a record counts as existing. (Findings: the owner's own hash is taken as covered by its record; opt-out records are accepted for the wildcard.)", "quantifier": "all zones, hash functions, parameters, all subsets of their NSEC3 records, all names and types", "why_tests_cant": "hashing hides the relation between names and records; tests have a handful of precomputed hashes", "anchors": ["dnssec/denial_existence.go"]}
{"id": "C51", "title": "DNSSEC key store returns only unexpired verified keys", "statement": "However operations on the key store overlap, they have the same results as if done one after the other in some order that respects which was finished before which began: keys got for a zone are those most recently added for it, if no more time has passed than the TTL of each allows, and else none; DS records got are all those added for the zone, under the same condition with the time of the last addition; nothing of another zone, nothing lost.", "quantifier": "all interleavings of any number of operations, all zones, key sets and clocks that do not go backwards", "why_tests_cant": "lost updates and mixed-up sets need particular interleavings of locking and unlocking", "anchors": ["dnssec/keystore.go"]}
{"id": "C52", "title": "DNSSEC: client flags are honoured", "statement": "Upstream is asked the client's query with the DO bit set, nothing else changed. The client sees the upstream message, with all DNSSEC records if it set DO, else without signature and denial records it did not ask for by type, without an OPT record if it sent none and with DO clear if it had it clear; bogus data gives SERVFAIL with nothing of the upstream message (unless only logging is on); AD is set on validated answers, and if upstream does not set it itself it means validated. Configured anchors are used as they are; fetched ones are for the root and not expired; the built-in ones are used only if there are no others. (Findings: an AD bit set by upstream is passed on for unvalidated answers; CD is not honoured; anchors announced for the future are trusted, and those with an unreadable end date as well; a query without question panics.)", "quantifier": "all queries, upstream messages, verdicts and anchor files", "why_tests_cant": "the result depends on the combination of client flags, EDNS, sections, code and verdict", "anchors": ["dnssec.go"]}
{"id": "C53", "title": "Plain DNS listener answers every query exactly once with the query's id", "statement": "For every query that a UDP, TCP, TLS or DTLS listener reads it writes at most one message: none if the pipeline drops the query (then the connection is closed), REFUSED without asking the pipeline if the client is not in the allowed networks, SERVFAIL if the pipeline fails, else the pipeline's message, whose ID is that of the query as far as the pipeline keeps it (C76), without padding in clear text and padded when encrypted, and over UDP cut to the size the client can take, with the TC flag (finding: not if the listener is restricted to one IP version). DoH listeners answer each request once with a status or the message, and DoQ listeners write one message per stream.", "quantifier": "all queries, clients, pipelines, sizes", "why_tests_cant": "a sequence of decisions on arbitrary messages; size limits and flags interact with options in the query that tests do not vary", "anchors": ["dnslistener.go"]}
{"id": "C54", "title": "DoH listener: client address can only be overridden by trusted proxies", "statement": "The client address used for policy is the TCP peer unless the peer is in the trusted proxy network, and then it is the last forwarded address if that parses and is not loopback.", "quantifier": "all headers and peers", "why_tests_cant": "all header values, chosen by an attacker", "anchors": ["dohlistener.go: extractClientAddress"]}
{"id": "C55", "title": "0-RTT data can never trigger a state-changing operation", "statement": "Over DoH and DoQ early data (0-RTT) the listeners pass only QUERY and NOTIFY messages to the pipeline before the handshake is complete, and the clients send only those early; other messages wait for the handshake or are refused. The DoQ client uses one connection at a time and its early state is used up by the first message.", "quantifier": "all messages, all handshake states, all interleavings of queries on one DoQ client", "why_tests_cant": "replay depends on the handshake state at the moment of the query, which a test cannot enumerate under concurrency", "anchors": ["dohlistener.go", "doqlistener.go", "dohclient.go", "doqclient.go", "message.go: isReplayableOpcode"]}
{"id": "C56", "title": "Upstream answers for another question are rejected", "statement": "Every client returns an upstream response only if it repeats the question asked (name ignoring case, type, class) - for plain DNS, DoT, DTLS, DoQ, DoH and ODoH - and the caller sees its own query ID (DoQ restores it; finding: the DoH client does not check the ID).", "quantifier": "all queries, all byte strings an upstream may send back, all library behaviours", "why_tests_cant": "an attacker chooses the response; every byte string has to be considered", "anchors": ["message.go: validateResponseQuestion", "dnsclient.go", "dotclient.go", "doqclient.go"]}
{"id": "C57", "title": "Host-name validation", "statement": "The host-name check accepts exactly the names of 1 to 255 bytes made of labels of letters, digits and inner hyphens with a non-digit in the last label, one dot at the end being optional; so every RFC 1123 host name passes and nothing with another character does (findings: empty inner labels and labels over 63 characters pass). An endpoint is accepted exactly if it is host:port or [host]:port with a port number and an IP address or such a name.", "quantifier": "all strings", "why_tests_cant": "exactness quantifies over all strings; the missed empty-label check in the code passed its tests", "anchors": ["validate.go: validEndpoint, validHostname"]}
{"id": "C58", "title": "Socket hand-over protocol round-trips and enforces its allow-list", "statement": "Every socket request of the client is decoded by the server to the same domain, type and protocol; the server answers requests in order until the first malformed message, makes only IPv4/IPv6 TCP and UDP sockets unless unrestricted (whatever bytes it is sent), hands out exactly the descriptor the kernel made and keeps none. The client ends with at most one descriptor (finding: descriptors that come with a malformed response are leaked). Sockets get all options before bind or connect and the descriptor is closed exactly once on every path.", "quantifier": "all byte strings and sequences of messages, all behaviours of the kernel, all options and addresses", "why_tests_cant": "requests are arbitrary byte strings from another process, and leaks show only on error paths that tests cannot provoke", "anchors": ["xsocket_linux.go", "xsocketserver_linux.go"]}
{"id": "C59", "title": "Network-namespace listeners follow the namespace", "statement": "However namespace events, the watcher, the supervisor and the listener's goroutines interleave: when nothing more is under way and no event was lost, the listener runs if and only if the namespace exists, and it runs in the namespace of that name which exists now; rest is always reached within a bounded number of steps once the namespace is left alone and starting succeeds; two instances never run at once unless one was given up, which happens only after 31 calls of Stop. Events are lost only if they fall between the subscriber's look at the file system and its registration, or find its channel of 16 full (findings: both leave an existing namespace without listener for good; a listener given up goes on beside its successor).", "quantifier": "all interleavings, all sequences of events of any length, all results of building, binding and stopping", "why_tests_cant": "the failures need particular schedules of four goroutines and the kernel", "anchors": ["cmd/routedns/main.go: runNetNSSupervisor", "netns_watch_linux.go"]}
{"id": "C60", "title": "Configuration graph is instantiated in dependency order or rejected", "statement": "Start-up succeeds if and only if no id is used twice or empty, everything referred to is defined, no group names an element twice, no chain of references comes back to its start, every constructor accepts its options, and every listener (but admin) has its element. Then every element has been built, once, from exactly the elements it names, in that order, and these were built before it. The result does not depend on the order in which maps are iterated, and there is no endless loop.", "quantifier": "all configurations of any size, all iteration orders of all maps, all constructors", "why_tests_cant": "map iteration order is random and graphs have any shape; a test sees a few of both", "anchors": ["cmd/routedns/main.go: start, instantiateGroup, instantiateRouter", "cmd/routedns/resolver.go: instantiateResolver"]}
{"id": "C61", "title": "Prefetch only repeats frequently asked, successful queries", "statement": "A query is repeated by prefetch only when a client asked it and clients got at least the threshold number (5 unless configured) of good responses for its key, each less than a window (an hour unless configured) after the one before and the last less than a window ago. Only the expiry of an answer sends anything, and an unusable response ends the repetition. (Finding: the window slides with every query, so the threshold can be reached over any length of time.)", "quantifier": "all histories", "why_tests_cant": "depends on the whole history of queries and clock readings", "anchors": ["prefetch.go"]}
{"id": "C62", "title": "ODoH proxy and target policy", "statement": "The proxy sends a request on exactly if it is a POST of oblivious DNS with a target host that is a public name (letters, digits, hyphens, at least two labels, last one alphabetic: no IP address, no port) and a path without '..'; then to that host and path only, and what comes back is the target's content or an error. The target's pipeline sees only queries that could be decrypted (or plain DoH if allowed), without client address, and the answer goes back encrypted; a client, proxy and target of this program together return the pipeline's answer. (Findings: allowed-net is ignored, bodies are cut to 4096 bytes, a broken-off response is handed on with status 200.)", "quantifier": "all HTTP requests, all target responses, all pipelines, all encryption schemes", "why_tests_cant": "an open proxy is a matter of every possible host string; the pattern is a regular expression over all strings", "anchors": ["odohlistener.go", "odohclient.go"]}
{"id": "C63", "title": "A dropped query is dropped, never a crash", "statement": "A resolver chain that returns neither an answer nor an error makes the UDP, TCP, TLS, DTLS and DoH listeners send no DNS answer and keeps the process alive; the DoQ listener is the exception, for which a crash is proved as a counterexample.", "quantifier": "all queries and clients", "why_tests_cant": "a nil message travels through code that was written for non-nil ones; every path has to be looked at, not those a test happens to take", "anchors": ["drop.go", "dnslistener.go", "dotlistener.go", "dohlistener.go", "doqlistener.go"]}
{"id": "C64", "title": "Logging elements are transparent", "statement": "The syslog and query-log elements pass every query to the next resolver unchanged and every result back unchanged, whatever is logged and whether or not the log can be written; a successful response is logged with one line per shown record, numbered in order, or one line that says that there is none.", "quantifier": "all queries, results, options and log failures", "why_tests_cant": "all upstream results and log outcomes", "anchors": ["syslog.go", "query-log.go"]}
{"id": "C65", "title": "DTLS packets reach the DNS reader as an unbroken byte stream", "statement": "However the DNS reader cuts up its reads, the bytes it gets from a DTLS connection are the contents of the received records one after the other, with nothing lost, repeated or reordered; every read with room returns at least one byte as long as there are any.", "quantifier": "all sequences of datagrams and read sizes", "why_tests_cant": "read sizes and packet sizes combine without bound", "anchors": ["dtlslistener.go: dtlsConn.Read"]}
{"id": "C66", "title": "Addresses without port get the default port", "statement": "A host name or IPv4 address without port gets exactly the default port of its protocol and is then accepted as an endpoint; an address or URL that has a port keeps it; a URL without port gets the default one and its path and template stay. (Finding: an IPv6 address without port gets none and is rejected.)", "quantifier": "all address strings, all ports, all behaviours of the URL parser", "why_tests_cant": "the set of address strings is infinite and the cases (colon, slash, bracket, template) combine", "anchors": ["static_default_ports.go: AddressWithDefault", "validate.go: validEndpoint"]}
{"id": "C67", "title": "Other work never runs in a foreign network namespace", "statement": "However calls that switch to network namespaces overlap on the threads of the program, the function given runs in its target namespace, and every thread that is not within such a call is in the program's own namespace, provided switching back succeeds and no call starts while the main thread is itself within a namespace (findings: in that case, since /proc/self is the main thread's, the other thread is left in the foreign namespace; and a failed switch back is ignored).", "quantifier": "all interleavings of any number of threads, all namespaces, all results of the kernel", "why_tests_cant": "a race between threads that needs a particular thread to be the main one; no test hits it reliably", "anchors": ["netns_linux.go: RunInNetNS"]}
{"id": "C68", "title": "Background refresh of cached answers never delays or worsens them", "statement": "A query answered from the cache starts a refresh in the background exactly if the response held was no SERVFAIL, its lowest TTL when received was above the configured minimum, and the lowest TTL left is below the trigger; the client gets the held answer at once in any case. The refreshed answer is kept only if it is complete, without error, and its lowest TTL is at least what was left; otherwise the cache stays as it was. (A record with exactly the configured minimum is not refreshed although the documentation says so; a SERVFAIL that carries a record replaces a good answer.)", "quantifier": "all histories of the cache, all queries, all replies to the refresh, all clock readings", "why_tests_cant": "depends on what was stored last in an arbitrary history and on the age at the moment of the query", "anchors": ["cache.go: Cache.Resolve, storeInCache, minTTL", "cache-memory.go: Lookup"]}
{"id": "C69", "title": "Location and network lists hold exactly the numbers written in them", "statement": "A list of location or autonomous-system rules loads exactly if every line is blank, a comment, or one decimal number that fits 64 bits, with optional white space around it and an optional comment after it; the loaded list then holds exactly the numbers written. An address matches a location list exactly if the database knows it and one of its continent, country, city or subdivisions is in the list, and a network list exactly if its autonomous system number is in the list; the rule reported is one of these. An address the database does not know never matches.", "quantifier": "all lists of all lines; all databases; all addresses", "why_tests_cant": "the lines are arbitrary byte strings: overflow at 2^64, signs, underscores, comments directly behind the digits and leading zeros are all silent acceptances or rejections that decide whether a whole list loads; tests only try a handful", "anchors": ["geoip-db.go:NewGeoIPDB", "geoip-db.go:GeoIPDB.Match", "asn-db.go:NewASNDB", "asn-db.go:ASNDB.Match"]}
{"id": "C70", "title": "A list database is never used after it was closed, nor closed twice", "statement": "However queries that match client or response addresses against location lists overlap with periodic reloads of the lists, no query reads a database that was closed. The databases of the list in use are open at all times; besides them only those of a reload that is running, or of reloads that failed, stay open.", "quantifier": "any number of databases, concurrent queries and reloads; all interleavings", "why_tests_cant": "the race is between a reload that swaps and closes, and readers that still hold the old list; it needs a particular interleaving that tests cannot force, and leaked databases only show over many failed reloads", "anchors": ["geoip-db.go:GeoIPDB.Close", "response-blocklist-ip.go:ResponseBlocklistIP.refreshLoopBlocklist", "client-blocklist.go:ClientBlocklist.refreshLoopBlocklist", "ip-db-multi.go:MultiIPDB.Reload"]}
{"id": "C71", "title": "Encrypted upstreams are authenticated under the configured name", "statement": "The certificate of an upstream server is checked for the configured server name or, if there is none, for the host in its configured address, whatever addresses name look-ups return: for DNS over HTTPS on TCP always; for DNS over TLS if it has a server name or a bootstrap address (not both different), goes through a proxy, or is given by a literal address; DNS over QUIC and HTTPS over QUIC always use the host in the configured address. The exact exceptions are part of the claim: DNS over TLS given only by name checks the certificate for the address that the look-up returned; DTLS without a bootstrap address passes no name to check; a configured server name is ignored by QUIC and DTLS, and by DNS over TLS with a bootstrap address.", "quantifier": "all configurations; all results of name look-ups", "why_tests_cant": "tests use literal addresses or a cooperative resolver; the failure needs a lookup under an attacker's control and shows as a connection that works", "anchors": ["dnsclient.go:GenericDNSClient.Dial", "dnsclient.go:resolveEndpointAddr", "dotclient.go:NewDoTClient", "dtlsclient.go:NewDTLSClient", "doqclient.go:NewDoQClient", "dohclient.go:dohTcpTransport", "dohclient.go:dohQuicTransport", "cmd/routedns/resolver.go:instantiateResolver"]}
{"id": "C72", "title": "Connections to upstreams go to the configured server from the configured local address", "statement": "A connection goes to the bootstrap address if one is configured, else to the host in the server's address (names by the first address found), always at the configured port, and is bound to the local address configured for the family of the address connected to, else to the general one. QUIC connections differ if a local address of only one family is configured: that one is used towards both. All connections through a SOCKS5 proxy ask it for one and the same destination, that of the first; names are replaced by an IPv4 address only if asked to.", "quantifier": "all configurations, addresses and look-up results; all sequences of connections", "why_tests_cant": "the choice depends on the family the look-up gives and on which of three options are set, and for the proxy on the history of the dialer", "anchors": ["dnsclient.go:selectLocalAddr", "dnsclient.go:resolveEndpointAddr", "socks5.go:Socks5Dialer.Dial", "doqclient.go:NewDoQClient", "dohclient.go:dohDualStackQuicTransport", "dtlsclient.go:NewDTLSClient"]}
{"id": "C73", "title": "TLS options never silently weaken authentication", "statement": "A listener with mutual TLS requires client certificates and checks them against the configured CA file, or does not start; a client with a CA file trusts exactly the certificates in it, or is not created: a missing, unreadable or empty CA file never falls back to the system's certificates or to accepting everybody. A certificate is presented exactly if both certificate and key are configured.", "quantifier": "all combinations of options and file contents", "why_tests_cant": "the dangerous cases are combinations of missing and broken files, where a weak configuration works without any error", "anchors": ["tls.go:TLSServerConfig", "tls.go:TLSClientConfig", "dtls.go:DTLSServerConfig", "dtls.go:DTLSClientConfig"]}
{"id": "C74", "title": "Scripts run one query at a time per script state, and queries get what the script returned", "statement": "However queries that pass through a Lua script overlap, no script state is used by two of them at once and at most the configured number (4 by default) run at a time; queries only wait while all states are in use. A query gets exactly the message and error that the script returned when called with this very query and client; a script that fails or returns anything else makes the query fail. (Finding: a second return value of an unsupported type leaves the first on the script's stack, so that after enough such queries all queries fail for good.)", "quantifier": "all scripts, all interleavings of any number of queries, all pool sizes", "why_tests_cant": "two queries in one script state corrupt it silently and only for particular interleavings; the stack leak shows only after hundreds of thousands of queries", "anchors": ["lua.go:Lua.Resolve", "lua-script.go:LuaScript.Call"]}
{"id": "C75", "title": "Queries sent with DoH GET requests arrive unchanged", "statement": "What a client puts into a GET request for a query, a listener decodes to the same bytes; different queries give different requests; the encoding needs no escaping in a URL and has no padding. A listener accepts exactly the texts that, after line ends are removed, consist of characters of the URL-safe alphabet whose number is not one more than a multiple of four.", "quantifier": "all byte strings", "why_tests_cant": "the encoding has three length classes and unused bits that have to be ignored; a sample of queries does not cover the byte patterns", "anchors": ["dohclient.go:DoHClient.buildGetRequest", "dohlistener.go:DoHListener.getHandler"]}
{"id": "C76", "title": "In any configuration, replies belong to their queries and no query crashes the program", "statement": "Put any elements together in any way that the configuration allows: modifiers, lists, rate limiters, static and replacing elements, groups, routers, caches, de-duplication, DNS64, validators, logs, and clients for UDP, TCP, TLS, DTLS, QUIC and HTTPS. Every reply to a query with a question is then an error, a drop, or a message that has the ID of the query and its question (in any spelling), and no query crashes the program. So what a UDP, TCP, TLS or DTLS listener in front of the configuration sends is a message with the ID and the question of the client's query. Excepted are the configurations known to crash: static elements with blank records, EDNS0 modifiers that add option 12, round-robin groups without members.", "quantifier": "For all configurations (trees of elements of any depth), all queries with a question, all histories of all elements, all interleavings, all behaviour of servers and networks; HTTPS servers are taken to keep the ID.", "why_tests_cant": "A test covers one configuration. The number of ways to connect elements is infinite, and each element relies on what the elements behind it return; only an induction over configurations covers them.", "anchors": ["cmd/routedns/main.go: instantiateResolver, instantiateGroup, instantiateRouter", "resolver.go", "listener.go: listenHandler", "message.go: validateResponseQuestion"]}
{"id": "C77", "title": "What counts as a failure of a group member", "statement": "Fail-rotate, fail-back, random and load-balance groups take a member to have failed exactly if it returned an error, REFUSED or NOTIMP, SERVFAIL if `servfail-error` is set, or, if `empty-error` is set, a message without a record of the type asked for (for ANY: nothing, or just a HINFO record), unless the answer section is empty and the message carries the extended error Blocked, Censored or Filtered. A dropped query is never a failure. (The manual promises success for these codes also when the answer section has other records; proved not to hold.)", "quantifier": "For all messages with any records and options, all settings.", "why_tests_cant": "Messages are unbounded, and the rule has a case for almost every combination of code, question type, records and options; a test suite samples a few of the combinations.", "anchors": ["resolver.go: isSuccessResponse", "doc/configuration.md: servfail-error, empty-error"]}
{"id": "C78", "title": "Name look-ups through the bootstrap resolver use its answers only and end", "statement": "Once a bootstrap resolver is configured, every name look-up of the program asks it, as the local host, and uses nothing but its reply to that query, with the ID and the question of the look-up. A look-up fails if the resolver fails, drops the query or answers with more than 1232 bytes. It always ends, provided replies are marked as responses, for any sane configuration; a reply that is not marked as a response (clients accept those) makes the look-up wait for ever, which is proved as a counterexample.", "quantifier": "For all resolvers and replies, all look-ups.", "why_tests_cant": "The connection is used by the Go library in ways no test of this repository controls: its buffer size, its checks and its retry loop. That nothing waits for ever cannot be observed in finite time.", "anchors": ["net-resolver.go: NewNetResolver, packetConn", "cmd/routedns/main.go: bootstrap-resolver"]}
{"id": "C79", "title": "A configuration file means what its sections say, and accepted careful configurations only send replies that belong", "statement": "The program starts exactly when every id referred to exists once and without loops, every resolver, group and router section is valid for its type, and every listener is acceptable. Then each listener is given exactly the element its configured id describes: the type, options, members in the order given and optional resolvers of each section, through all levels. If no section has one of three mistakes (round-robin without members, blank static records, EDNS0 padding added by hand), no query crashes any listener whatever the servers send, and each message a listener sends has the ID and the question of the request. Proved as counterexamples: allowlist-format is ignored, modifiers without operation and unused optional resolvers are accepted silently, cache-size is ignored with a backend, an empty round-robin group is accepted and crashes.", "quantifier": "For all configurations with any number of sections and any depth, all orders of map iteration, all behaviours of servers, all requests.", "why_tests_cant": "There are infinitely many configurations; tests try a few files and never compare what was built with what the file says, nor do they see what whole pipelines send for arbitrary upstream behaviour.", "anchors": ["cmd/routedns/main.go: start, instantiateGroup, instantiateRouter, newBlocklistDB, newIPBlocklistDB", "cmd/routedns/resolver.go: instantiateResolver", "cmd/routedns/config.go: config, group, resolver, router, listener"]}
{"id": "C80", "title": "Scripts read and write messages as the manual says, and cannot break them", "statement": "In a Lua script every object (message, question, record of any type, OPT record, EDNS0 option, client information) has a fixed set of fields. Reading succeeds exactly for these fields, assigning exactly for those that can be set and values they take; a refused assignment raises an error and changes nothing. An assigned field reads back as assigned (numbers in range lose only their fraction, addresses are shown in their usual text, lists of records are lists of the same objects, lists of questions become copies), and no other field of this or any other object changes, except for fields that are stored in one place (the header of an OPT record, the code of a local option). The constructors take exactly the documented arguments, give new objects and set what was given; for records the order of the table does not matter. set_reply, set_question, is_edns0, set_edns0 do what they say and nothing else. Whatever a script does, in any order, objects stay valid and of the same type, and no record ever claims to be an OPT record without being one, which would crash the program. Asking a resolver takes a resolver, a message and a client, and hands over exactly these. (Findings: extended_rcode keeps only bits 4 to 7 of the value; a record made without class has class 0; set_edns0 adds an OPT record even when there is one.)", "quantifier": "For all record types and layouts, all memory states, all objects, field names and values, all sequences of operations of a script.", "why_tests_cant": "There are dozens of types with hundreds of fields, and scripts share objects; what an assignment leaves unchanged in all other objects cannot be tested field by field.", "anchors": ["lua-message.go", "lua-question.go", "lua-rr.go", "lua-opt.go", "lua-edns0*.go", "lua-clientinfo.go", "lua-resolver.go: resolverResolve", "lua-helpers.go"]}
{"id": "C81", "title": "The sandbox of scripts, and the names they find", "statement": "A script in the sandbox starts with exactly the functions of the base library that do not load code or files, and the table, string, math and coroutine libraries; nothing reaches files, processes, the environment or the debugger. Its top level runs with the libraries only; afterwards the types, constants and resolvers are defined under their names whatever the script had put there, and all other globals are what the script left. It is accepted exactly if its top level succeeds and leaves a function Resolve.", "quantifier": "For all contents of the libraries, all scripts, all tables of type, class and response code names.", "why_tests_cant": "A test can try to call some forbidden functions; it cannot show that nothing else is reachable.", "anchors": ["lua-script.go: NewScriptFromByteCode, openSandboxedLibs, HasFunction", "lua.go: newScript", "lua-types.go: RegisterConstants"]}
{"id": "C82", "title": "Concurrent stores never mix up cache entries", "statement": "Stores into the memory and Redis caches share a pool of buffers and, for Redis, may go on after the call returned. However many run at a time and however they interleave, what is stored under a key is exactly the encoding of the message the store was called with, even if the caller changes the message afterwards. No buffer is in use twice. At most 256 asynchronous writes go on per backend; no store panics or waits for another. (Two asynchronous writes of one key can overtake each other, so the older can be the one that stays: a counterexample is proved.)", "quantifier": "For all numbers of concurrent stores, all interleavings, all behaviours of the pool (including losing buffers) and of the packer (writing in place or allocating), all failures of Redis.", "why_tests_cant": "A race on a recycled buffer shows as rare corruption under load; tests run few goroutines and cannot enumerate interleavings.", "anchors": ["cache-memory.go: memoryBackend.Store", "cache-redis.go: redisBackend.Store", "cache-encoding.go"]}
{"id": "C83", "title": "Emptying the Redis cache removes its entries and nothing else", "statement": "When emptying the cache succeeds, every entry that was there when it began has been deleted, whatever other clients do to the database meanwhile; none is left but those written while it went on. Keys without the prefix are never touched, also if it fails half-way. This holds for all prefixes without the special characters of Redis patterns; for the others counterexamples are proved (an empty prefix, the default, deletes the whole database; with a question mark foreign keys are deleted; with brackets the entries themselves are missed).", "quantifier": "For all databases, prefixes, batch boundaries and orders of SCAN allowed by its contract, all interleavings with other clients, all failures.", "why_tests_cant": "SCAN gives weak guarantees under concurrent writes that only show on large databases; a test database is scanned in one batch.", "anchors": ["cache-redis.go: redisBackend.Flush", "cache.go"]}
{"id": "C84", "title": "A listener opens the socket its section describes", "statement": "Each listener opens one socket: TCP or UDP as its protocol and transport say, at the configured address, in the network namespace or through the socket server named, with the mark and interface given; nonsensical sections open none. Proved as counterexamples: ip-version is heeded for plain DNS, and for DoT without namespace and socket options, only; DTLS ignores socket options and cannot use a socket server, and if its address has a host name (such as localhost) it listens on every address of the machine.", "quantifier": "For all listener sections, addresses, namespaces, socket options and behaviours of address parsing.", "why_tests_cant": "Needs privileges, several namespaces and interfaces, and there is one combination of code paths for each protocol, transport, namespace kind and option.", "anchors": ["dnslistener.go: Start", "dotlistener.go: Start", "dohlistener.go: startTCP, startQUIC", "doqlistener.go: Start", "dtlslistener.go: Start", "odohlistener.go: Start", "adminlistener.go: startTCP, startQUIC", "cmd/routedns/main.go: listeners"]}
{"id": "C85", "title": "Blocked names and clients do not reach the servers, in whole configurations", "statement": "If on every way from a listener to a server there is a blocklist whose rules, written in the configuration as domains or regular expressions, cover a name that its allow rules do not, and names are not replaced and nothing is validated or prefetched behind it, then no server is ever asked about the name, whatever clients ask, in whatever order, whatever the elements have seen before and whatever servers reply; replies are those of servers that know nothing of the name. If on every way there is a list of networks with the address of a client, looked at without client-subnet options, then nothing the client asks reaches a server, unless prefetching or validation, which ask by themselves, come before the list; for prefetching a counterexample is proved.", "quantifier": "For all configurations that the program accepts, all queries, clients, histories of the elements and replies of servers.", "why_tests_cant": "The claim is about the absence of an event on every way through any composition of two dozen kinds of elements; a test sends some queries through one configuration.", "anchors": ["blocklist.go: Blocklist.Resolve", "client-blocklist.go: ClientBlocklist.Resolve", "prefetch.go: NewPrefetch", "cmd/routedns/main.go: instantiateGroup", "router.go: Router.Resolve", "dns64.go: DNS64.Resolve"]}
{"id": "C86", "title": "Stopped listeners close their sockets, and listeners come back after failures", "statement": "However calls of Start (one at a time) and Stop (any number, at any time) interleave: when Start has returned and every Stop has returned, no socket of the listener is open, provided serving did not end by itself for the kinds that do not clean up then. DoH and admin over TCP, and DNS and DoT sockets opened by the library, are closed as soon as Start has returned, without a Stop. A Stop made while the listener can be stopped ends Start: once the server has been closed Start can only return. A Stop made too early returns at once and has no effect, except that an fd server told to stop before serving does not serve. A listener that serves goes on serving, with the same socket, until somebody calls Stop or serving fails. A DoH or admin listener over TCP can be started again after whatever happened. (Findings: without Stop, which the main program never calls for listeners outside namespaces, a DNS, DoT or DTLS listener whose serving ended with an error never serves again, though it is started every second; with a socket made by the program the socket is left open as well; DoH over QUIC leaves its socket open and finds its address taken for ever; a DoQ listener never returns from Start, it repeats the failing call.)", "quantifier": "all interleavings of Start and Stop of any length, all results of binding, listening and serving, all six kinds of listeners", "why_tests_cant": "a Stop that comes between two statements of Start is a matter of scheduling, and failures of serving do not happen in tests", "anchors": ["dnslistener.go: Start, startWithSocketSetup, Stop", "dotlistener.go: Start, Stop", "dtlslistener.go: Start, Stop", "doqlistener.go: Start, Stop", "dohlistener.go: startTCP, startQUIC, Stop", "adminlistener.go: startTCP, startQUIC, Stop", "xsocketserver_linux.go: Start, Stop", "cmd/routedns/main.go: start"]}
{"id": "C87", "title": "Namespace events are understood and reach their subscribers", "statement": "Whatever inotify events the kernel puts into the watcher's buffer, and whatever older bytes are behind them, the watcher reports exactly what they say: in their order, a name that was created or moved in as present, one that was deleted or moved out as absent, and nothing for other events or for events without a name; it does not crash. What a subscriber receives depends only on the events of its own name and on what it takes out of its channel; it hears of every change in order and of nothing that is no change, up to sixteen unread ones. Waiting for a namespace ends at the first look that decides: ready when the namespace is mounted, an error when it is missing, and a time-out only at a look after the deadline; between looks it sleeps at most ten milliseconds and never beyond the deadline. (Finding: when the kernel reports that its queue overflowed, events are lost and the watcher does not look at the directory again.)", "quantifier": "all lists of kernel events of any number and length of names, all contents of the rest of the buffer, all lists of subscribers, events and receptions, all sequences of looks and clocks", "why_tests_cant": "pointer arithmetic over a buffer goes wrong only for certain lengths and paddings of names, and tests need root and real namespaces", "anchors": ["netns_watch_linux.go: netnsWatcher.read, dispatch, subscribe, notifyLocked, WaitNetNSReady"]}
{"id": "C88", "title": "The fd-server takes over sockets nobody uses and leaves those in use alone", "statement": "When servers on one socket path start one after the other and nobody else touches the path, then however they stop, fail and crash: at most one of them accepts connections, the file at the path is its socket, and once it has started the file has the permissions configured. A server that starts does not touch the socket of one that accepts connections but gives up; something at the path to which nobody listens is removed and the server serves there. Stopping a server leaves nothing at the path. With an abstract name at most one server has it, however they start, stop and crash at the same time. The mode on the command line is accepted exactly when it is written in octal digits and has only permission bits. (Findings: whatever is at the path and does not answer is removed, including a file that is no socket; servers that start at the same time may both end up serving, one of them where nobody can reach it, and stopping that one removes the other's socket; between listen and chmod connections are accepted with default permissions; a mode of 0 is taken for none.)", "quantifier": "all interleavings of any length of any number of servers, all contents of the path, all errors of system calls, all strings given as mode", "why_tests_cant": "needs servers that crash and start at chosen moments; the races are windows of microseconds", "anchors": ["xsocketserver_linux.go: XSocketServer.listen, Start, Stop", "cmd/routedns/main.go: runFDServer"]}
{"id": "C89", "title": "Connecting a socket from the fd-server respects its time limit", "statement": "Connecting succeeds exactly when the kernel has connected the socket: at once, or later without an error pending on it. It is reported as timed out exactly when a wait was over without an answer. Every wait is at most the time limit, rounded down to milliseconds but at least one, and unlimited exactly when no limit was given. A refusal that arrives later is reported as that error. (Finding: each interruption by a signal starts the whole limit again.)", "quantifier": "all time limits, all results of the system calls, any number of interruptions", "why_tests_cant": "signals that interrupt poll, and errors that arrive after a connection was begun, do not happen in tests", "anchors": ["xsocket_linux.go: connectFd"]}
{"id": "C90", "title": "What a client gets through the validating element is proven", "statement": "A client behind the DNSSEC element, when the resolver behind answers with NOERROR or NXDOMAIN, gets one of three things: SERVFAIL with no records and without the AD bit; or an answer with AD in which every record but signatures belongs to a record set of the upstream answer on which a signature was checked, made by a zone at or above the name, with keys that lead to the trust anchors (and if the answer is empty, signed records deny the name or the type); or, with AD as the upstream left it, an answer for which a signed proof shows that the delegation above is unsigned. Under the usual assumptions on keys, what is proven is exactly what the zone published, none missing and none added.", "quantifier": "all upstream answers, also forged ones, all interleavings of validations that share caches, all client flags, any elements behind", "why_tests_cant": "a test forges the answers its author thought of; the claim joins the validator, its caches and the element that shows the result to the client", "anchors": ["dnssec.go: DNSSECValidator.Resolve", "dnssec/validator.go: Validator.Validate"]}
{"id": "C91", "title": "A cache with a file serves only justified answers over any number of restarts", "statement": "A memory cache with a file, used by any number of runs of the program, each of which may end at any moment: neither the cache nor saving or loading ever crashes; whatever is served is the response that some run stored for the same request, within the lifetime that the options of that run gave it, with TTLs reduced by exactly the time since, and it was in the cache ever since or was saved and loaded; an entry replaced or flushed after the last save is served again only after a start. If the cache was saved last and the file is read completely, every look-up has the result it would have had without the restart. With a smaller capacity than the file has records, the cache keeps to its capacity.", "quantifier": "all histories of stores, look-ups, evictions, flushes, saves and starts with new hash seeds, options and capacities, files cut short by errors", "why_tests_cant": "a test restarts once, in an orderly way, with the same options; the claim quantifies over all histories of all runs", "anchors": ["cache-memory.go: NewMemoryBackend", "cache-memory.go: memoryBackend.writeToFile", "cache-memory.go: memoryBackend.loadFromFile", "lru-cache.go: lruCache.deserialize", "cache.go: Cache.storeInCache"]}
{"id": "C92", "title": "Counters tell what happened", "statement": "Registering the published counters never crashes, whatever elements a configuration has and whatever their ids are, and elements share a counter only if they have the same id and kind of counter. For DNS, DoT and DTLS listeners, over any queries: queries counted are the messages with a question, responses counted under a code are the responses sent with that code, drops are the queries left without response, and the three make up all queries; errors are exactly the messages without question, refused clients and failed queries. DoH counters match the requests by method and the HTTP statuses sent. A blocklist counts each query as allowed or denied, as it treats it; a rate limiter counts queries, excesses and drops; DNS64 counts a synthesis exactly if the client gets something else than the upstream's answer; a cache counts one hit or miss per query, a miss exactly if the upstream was asked; the validator counts what it found. In groups, over all interleavings, the count of queries routed to a member is the number of its replies plus the queries waiting for it, failures are its failed replies, and the gauge of a fail-back group is always between one and the number of members. A DoQ listener counts connections refused and accepted, streams, messages with a question and answers written, and every stream ends in exactly one of an answer and an error. DoH and DoQ clients count every query that could be encoded, the answers they give by code, and every failure under exactly one error. Clients that share a connection count the messages they write, each message they read as a response or as unexpected, and the callers that timed out, with any number of queries at the same time; every answer given was counted under its code, and maxqueue is the largest number of queries that were in flight at the same time. Routers and round-robin groups count each query for the element it goes to, and its error as a failure; a load balancer counts each member asked, and each failure also as a fail-over. The entries of a cache in memory are reported at most a minute late, and never more than its size allows.", "quantifier": "all configurations, all ids, all sequences of queries, all interleavings in groups", "why_tests_cant": "tests read a counter after one query; missed or double counts on rare paths and under concurrency stay unseen", "anchors": ["vars.go: getVarInt", "vars.go: getVarMap", "dnslistener.go: listenHandler", "dohlistener.go: DoHListener.parseAndRespond", "blocklist.go: Blocklist.Resolve", "client-blocklist.go: ClientBlocklist.Resolve", "rate-limiter.go: RateLimiter.Resolve", "dns64.go: DNS64.Resolve", "cache.go: Cache.Resolve", "dnssec.go: DNSSECValidator.Resolve", "failrotate.go: FailRotate.Resolve", "failback.go: FailBack.errorFrom", "random.go: Random.pick", "doqlistener.go: DoQListener.handleStream", "dohclient.go: DoHClient.Resolve", "doqclient.go: DoQClient.Resolve", "odohclient.go: ODoHClient.decodeProxyResponse", "router.go: Router.Resolve", "roundrobin.go: RoundRobin.Resolve", "loadbalance.go: LoadBalance.Resolve", "pipeline.go: Pipeline.start"]}
{"id": "C93", "title": "Messages in memory: queries stay as they came, replies belong to who got them, and servers are asked what the values say", "statement": "With any number of queries at the same time, in any configuration (scripts aside), with goroutines that share messages and go on after the reply was sent: the query a listener holds is never changed by the elements it is given to; a reply that was handed to a listener is not changed by anyone any more, and the replies of two queries have no memory in common; and the servers are asked only queries that the elements, taken as functions on values, would ask for one of the queries by itself, whoever is faster. The last holds if below each replace element there is no fastest group, or neither de-duplication nor cache; without this condition it is false: a late member of the group asks for the name the replace element was to hide.", "quantifier": "all configurations, all numbers of concurrent queries, all interleavings of all goroutines, all replies of servers and contents of caches", "why_tests_cant": "a data race shows only in rare interleavings, and only for combinations of elements nobody wrote a test for", "anchors": ["replace.go: Replace.Resolve", "request-dedup.go: requestDedup.Resolve", "fastest.go: Fastest.Resolve", "cache.go: Cache.Resolve", "cache.go: ageCachedAnswer", "loadbalance.go: LoadBalance.Resolve", "prefetch.go: Prefetch.Resolve", "ecs-modifier.go: ECSModifier.Resolve", "ttl-modifier.go: TTLModifier.Resolve", "dnssec.go: DNSSECValidator.Resolve", "dns64.go: DNS64.Resolve"]}
{"id": "C94", "title": "Every query ends", "statement": "With any number of queries at the same time, in any configuration (scripts aside), with goroutines that wait for the reply another query got, for the first member of a group to answer, or that go on after the reply was sent: the program cannot go on for ever, and it cannot come to a halt before every query has its reply, or was dropped, or failed, and every goroutine has ended, unless one of them panicked. No two goroutines ever wait for each other, and none is left behind. Each server asked is taken to reply or fail in the end. The one exception is a fastest group without members, which the configuration accepts: a query given to it never ends.", "quantifier": "all configurations, all numbers of concurrent queries, all interleavings of all goroutines, all replies of servers and contents of caches", "why_tests_cant": "deadlocks and leaked goroutines depend on rare interleavings and on combinations of elements; a test that passes has not shown their absence", "anchors": ["request-dedup.go: requestDedup.Resolve", "fastest.go: Fastest.Resolve", "prefetch.go: Prefetch.Resolve", "cache.go: Cache.Resolve", "router.go: Router.Resolve", "failrotate.go: FailRotate.Resolve", "failback.go: FailBack.Resolve", "random.go: Random.Resolve", "dnssec.go: DNSSECValidator.Resolve", "cmd/routedns/main.go: instantiateGroup"]}
{"id": "C95", "title": "The validator accepts what is properly signed", "statement": "When the zones and the resolver behind the validator are honest (signed zones have a chain of DS and key records one label at a time, with a key of flags 257 for the keys and one of flags 256 for the data; each unsigned zone is denied a DS record by a signed zone right above it), then a response whose record sets each have a good signature of a signed zone at or above their name is always accepted; one that also has sets from unsigned zones is always found to be insecure, never bogus; so is a response without answer for a name in an unsigned zone. It does not matter in which order the sets are looked at, which other bad signatures there are, which keys were kept from before and when they expire, and which other validations go on. No validation panics, and none goes on for ever. Three kinds of proper zones are not accepted: with a single key for everything, delegated from a zone two or more labels up, and unsigned below a name that exists only because of names below it.", "quantifier": "all honest sets of zones and replies, all responses, all schedules of concurrent validations, all times, all states of the key store", "why_tests_cant": "tests validate a few recorded chains in one order; a false alarm on a rare shape of zone, or after keys expired in the middle of a validation, makes names unreachable", "anchors": ["dnssec/validator.go: Validator.Validate", "dnssec/validator.go: Validator.validateRRset", "dnssec/validator.go: Validator.checkInsecureDelegation", "dnssec/validator.go: Validator.buildChainOfTrust", "dnssec/denial.go: verifyDSDenial", "dnssec/denial_existence.go: Validator.validateDenial", "dnssec/keystore.go: keystore.getDNSKEY"]}
{"id": "C96", "title": "The validator accepts proper denials", "statement": "A response without answer, with the NSEC or NSEC3 records that a server of a signed zone has to send (no such name; no records of the type at the name or at the wildcard it stands for; with opt-out), each properly signed, is always accepted, whatever further true records it has and in whatever order, and whichever letters the names are written in. Two kinds of proper denials are refused: with NSEC, that there is nothing at a name that only has names below it; and with NSEC3, everything in the root zone.", "quantifier": "all zones, names, types, lists of records, orders, hash functions that tell the names apart; all schedules of concurrent validations", "why_tests_cant": "tests hold a few zones with few names; off-by-one errors in the order of names show for rare neighbours only, and a refused denial makes the lookup fail", "anchors": ["dnssec/denial_existence.go: Validator.validateDenial", "dnssec/denial_existence.go: nsecProvesNODATA", "dnssec/denial_existence.go: nsecProvesNXDOMAIN", "dnssec/denial_existence.go: nsecCovers", "dnssec/denial_existence.go: nsec3ProvesNODATA", "dnssec/denial_existence.go: nsec3ProvesNXDOMAIN", "dnssec/denial_existence.go: nsec3ClosestEncloser", "dnssec/denial_existence.go: canonicalNameCmp"]}
{"id": "C97", "title": "Groups come back to members that failed when their time is over, not earlier and not later", "statement": "A fail-back group goes back to its first member only when at least reset-after has passed since every failover it has dealt with, and, on a machine that is not late, never stays away for longer than reset-after since the latest one. A random group does not ask a member that failed before reset-after has passed, has it among the active ones again at the latest then, and never loses or doubles a member. Without the option the time is 60 seconds, with it that many seconds. One exception: a failover at the very moment the timer is due is undone at once, and the group is back at the first member although the second failed just now.", "quantifier": "all groups, times, numbers of queries and interleavings of queries, timers and sleeping goroutines", "why_tests_cant": "the timer is reset by concurrent queries and tests would have to wait and to hit the moments between a failover and the reset of the timer", "anchors": ["failback.go: FailBack.Resolve", "failback.go: FailBack.errorFrom", "failback.go: FailBack.startResetTimer", "random.go: Random.Resolve", "random.go: Random.deactivate", "random.go: Random.reactivateLater", "cmd/routedns/main.go: instantiateGroup"]}
{"id": "C98", "title": "Options left out mean what the documentation says, and options given mean what they say", "statement": "A rate limiter with no window, prefix4 or prefix6 counts per minute and by /24 and /56 networks; one with values counts by those. From the second failure in a row of a member of a load-balancing group on, a failure counts like a response that took as many seconds as the failure penalty; without one it counts with the time it took. A cache without backend section is in memory with the gc-period given (a minute); with one it is of the type, size, period, file and interval given, in Redis at the address and with the retry times given, and any other type is refused. Lists are reloaded every given number of seconds and never without. Probes go to the port given, else 443. Prefetching uses the window, threshold and size given (an hour, 5). Lua groups run as many scripts at once as given (4). (Findings: a penalty of 300 years is none, since times wrap around; a backend section without a type is refused though a comment says memory is the default.)", "quantifier": "all configuration sections, together with all runs of the elements built from them", "why_tests_cant": "defaults are applied in four different places between the file and the element; that one of them is missed for one combination of options is seen only when the whole path is followed for all values", "anchors": ["cmd/routedns/main.go: instantiateGroup", "cmd/routedns/config.go: group", "rate-limiter.go: NewRateLimiter", "cache-memory.go: NewMemoryBackend", "cache-redis.go: NewRedisBackend", "blocklist.go: NewBlocklist"]}
{"id": "C99", "title": "Upkeep happens as often as configured, not less and not more", "statement": "A list is reloaded at least every period and so is never older than that (plus the time loading takes), if loading succeeds; reloads begin at least a period apart; a failed reload leaves the list as it is and does not end reloading; with no period it is loaded once. Entries leave a cache in memory at most a gc-period after they have expired, asked for or not. With a file and a save-interval the file is never older than that interval, and is not written more often; without one it is not written while the program runs. To all times come the delays of the machine, which are part of the statement. (Finding: a negative save-interval is accepted and the cache is saved again and again without a pause.)", "quantifier": "all periods, all runs of any length in which queries, clean-up and saves interleave in any order with any times, after any earlier runs of the program", "why_tests_cant": "times of background work are relative to when the work before was done; tests run for seconds, with a period or two", "anchors": ["blocklist.go: refreshLoopBlocklist", "client-blocklist.go: refreshLoopBlocklist", "response-blocklist-ip.go: refreshLoopBlocklist", "cache-memory.go: startGC, intervalSave, NewMemoryBackend"]}
{"id": "C100", "title": "One query causes no more queries to servers than the configuration says", "statement": "However many queries clients send, at once or one after the other, at any time servers have been asked at most the sum of what the configuration allows for each: one for a server, none for elements that answer themselves, what the next element costs for elements that pass queries on (caches with refresh and de-duplication among them), the dearest branch for elements that choose, both for elements that ask twice (DNS64, truncate-retry, response blocklists with a block resolver), the number of members times the dearest for groups that fail over, and the sum of the members for the fastest group. Nothing is asked without a query of a client. Not for elements that prefetch or validate, which ask on their own.", "quantifier": "all configuration trees of any depth, any number of concurrent queries, all interleavings, all replies, lists, cached entries and random choices", "why_tests_cant": "amplification is about the worst case over all replies and schedules of a whole configuration, tests see single elements with chosen replies", "anchors": ["failrotate.go: Resolve", "failback.go: Resolve", "random.go: Resolve", "loadbalance.go: Resolve", "fastest.go: Resolve", "cache.go: Resolve", "request-dedup.go: Resolve", "dns64.go: Resolve", "truncate-retry.go: Resolve", "response-blocklist-ip.go: Resolve", "router.go: Resolve"]}
{"id": "C101", "title": "Probing for the fastest address leaks nothing and ends in time", "statement": "For a query with several addresses in its answer, connections are made only to addresses of records that are in the answer and of the type asked for, at the configured port, over IPv4 for A and IPv6 for AAAA records, to each record once at most and to no more than 32. The call has an outcome at most two seconds after it began. No goroutine ever waits for the caller, also when the caller has gone; after at most 5n+2 steps for n records everything has ended, every goroutine has returned and every connection is closed. Each record is reported once at most, so that the order of the reply (C20) is the order in which connections came up.", "quantifier": "all answers, all orders and outcomes of connection attempts, all interleavings of goroutines, caller and timer", "why_tests_cant": "leaks show only for outcomes after the caller has left, in schedules that tests do not control", "anchors": ["fastest-tcp.go: probe, probeAll, probeFastest"]}
{"id": "C102", "title": "Every client has a reply in time", "statement": "If every server that is asked answers or fails within its time limit, each query has its reply (or was dropped, or failed) after at most a time that follows from the configuration: the limit of the server for a server, nothing for elements that answer themselves, the time of the next element for those that pass queries on (caches, also with refresh, de-duplication, also for those who wait for somebody else's request, prefetching), the slowest branch for elements that choose and for the fastest group, the sum for elements that ask twice, and the number of members times the slowest for groups that fail over. This holds for each query, whenever it comes in, with any number of other queries on the way. What is done within the program is taken to take no time.", "quantifier": "all configuration trees of any depth, any number of queries coming in at any times, all interleavings, all replies, lists, cached entries and random choices, all times of answers within the limits", "why_tests_cant": "the worst case is reached only in schedules where queries join requests of others that are late already, in nested elements, and with servers that answer just in time; a test has one schedule", "anchors": ["request-dedup.go: Resolve", "fastest.go: Resolve", "failrotate.go: Resolve", "failback.go: Resolve", "random.go: Resolve", "loadbalance.go: Resolve", "cache.go: Resolve", "prefetch.go: Resolve", "dns64.go: Resolve", "truncate-retry.go: Resolve", "response-blocklist-ip.go: Resolve", "router.go: Resolve"]}
{"id": "C103", "title": "Plain, TLS and DTLS upstreams: time limits and reconnection", "statement": "A call to an upstream server over UDP, TCP, DNS-over-TLS or DNS-over-DTLS is over query-timeout after it was made (2 seconds if not set), whatever the server, the network and other calls do; it is not given up before, and what it was completed with in time is returned at once. A connection on which nothing is received is given up after 10 seconds and the time of writes under way, and the next query makes a new one. (Finding: a write has no time limit and only the writer closes the connection, so while a write blocks, all later queries time out, even after the reader has given up.)", "quantifier": "all interleavings of any number of calls, all timings, servers and networks", "why_tests_cant": "a time limit is about the schedule that a test does not hit; a blocked writer needs a server that stops reading", "anchors": ["pipeline.go: Pipeline.Resolve, Pipeline.start, NewPipeline, idleTimeout, defaultQueryTimeout"]}
{"id": "C104", "title": "DNS-over-QUIC upstreams: time limits", "statement": "A call to a DNS-over-QUIC server is over query-timeout after it was made or, if later, after four handshake times for itself, for the call that was using the connection when it came, and for each call that got the connection in between. (Finding: connections are made by one call after the other with no regard to query-timeout, so of k+1 calls made at once to a server that does not answer, the last is still waiting after k handshake times.)", "quantifier": "all interleavings of any number of calls, all states of connections, all timings", "why_tests_cant": "the waiting time depends on how many calls are queued for the lock; tests make one at a time", "anchors": ["doqclient.go: DoQClient.Resolve, quicConnection.getStream, awaitReplaySafe, restart, NewDoQClient"]}
{"id": "C105", "title": "Load balancing in spite of rounding", "statement": "What is said of load-balance groups holds for the floating-point numbers the program computes with, not only for exact numbers: the position picked is always valid, also for the largest random number; every member is picked by the share its weight has in the sum of the weights, and when exploring by equal shares, up to errors of the order of the number of members times 2^-53; an average never falls below one microsecond and stays between the smallest and the largest sample up to a relative error of 2^-48, no matter how many samples there were; weights are between 2^-40 and 100; a failure the penalty does not apply to never lowers the average or raises the weight; a success after the average was raised by failures sets it to the time measured. This holds on processors with and without fused multiply-add.", "quantifier": "all histories, all numbers of members, all random numbers, all roundings to nearest, all choices of the compiler to fuse operations", "why_tests_cant": "rounding errors depend on the bits of the operands, and the critical cases (a product rounded up to the length of the list, errors adding up over a long history) are practically never hit by chance", "anchors": ["loadbalance.go: pick, updateOnSuccess, updateOnFailure"]}
{"id": "C106", "title": "No data races", "statement": "Whenever two goroutines of an element use the same variable, one of them changing it, either both uses are atomic operations or one comes before the other in the order of the Go memory model (through a lock, a channel, a sync.Once or the start of a goroutine): there is no data race, whatever the timing. This goes for groups (fail-back, fail-rotate, round-robin, random, load balance), rate limiters, blocklists and their refreshing, the cache with its clean-up and saving, the round-robin shuffling of answers, de-duplication, the connections of pipelines, QUIC and ODoH upstreams, the keys of validators, listeners being started and stopped, the socket service, the watcher of network namespaces and SOCKS5 dialers.", "quantifier": "all numbers of goroutines, all executions of any length, all interleavings, all outcomes of branches", "why_tests_cant": "whether a race detector sees a race depends on the schedule, and some of the accesses are made without the lock on purpose", "anchors": ["failback.go, failrotate.go, roundrobin.go, random.go, loadbalance.go: Resolve and what it calls", "rate-limiter.go: RateLimiter.Resolve", "blocklist.go, client-blocklist.go, response-blocklist-ip.go, response-blocklist-name.go: refreshLoop*, match", "cache-memory.go: memoryBackend", "cache.go: AnswerShuffleRoundRobin", "request-dedup.go: requestDedup.Resolve", "pipeline.go: Pipeline, request, inFlightQueue", "doqclient.go: quicConnection", "odohclient.go: getTargetConfig", "dnssec/keystore.go", "adminlistener.go, dohlistener.go, doqlistener.go: Start, Stop", "xsocketserver_linux.go: Start, Stop; netns_watch_linux.go: netnsWatcher; socks5.go: Socks5Dialer.Dial"]}
{"id": "C107", "title": "Locks are always given back", "statement": "In the elements of C106 the goroutines never block each other for good by locks: there is no set of goroutines each waiting for a lock that others of the set hold; a lock is released only by a goroutine that holds it, and whatever way a goroutine takes through the code, it holds no lock at its end.", "quantifier": "all numbers of goroutines, all executions, all ways through the code", "why_tests_cant": "a deadlock or a forgotten unlock shows only on the schedule or the error path that leads to it", "anchors": ["the same as of C106"]}
{"id": "C108", "title": "Log lines name the query they are about", "statement": "Every line logged for a query says which element logs, the client, type and name of the query, and protocol, address and path of the listener as far as known, then the attributes the logger was given, then those of the call, in this order. Loggers can be copied with more attributes any number of times, by any goroutines: a line never shows attributes of another copy, and no goroutine writes to memory another one reads from. A line goes to the logger the program had when the element began with the query, if that one shows lines of the level. Log levels 0 to 6 are accepted, and show what the manual says: nothing (0, 1), errors (2), also warnings (3), also information (4), everything (5, 6).", "quantifier": "all histories of loggers being made, copied and used, all choices of the runtime for the size of arrays, all attributes", "why_tests_cant": "whether two slices share an array depends on capacities the runtime chooses and on the order of calls", "anchors": ["logger.go: logger, queryLogger.With, queryLogger.log", "cmd/routedns/main.go: slogLevel"]}
{"id": "C109", "title": "ODoH: time limits, keys and connections", "statement": "A query to an ODoH upstream ends after the query timeout and the time for fetching the target's key, once for itself and once for each other query that was fetching it when this one came or began to while it waited. A query is encrypted with the key fetched last, no more than a day before, and not if fetching has failed since; a key is fetched again only after a day or after a failure, and never if one is configured. Queries go to the proxy, whose certificate is checked for its name or the configured server name; keys are fetched from the target directly, at its port or 443, and its certificate is checked for its name. Findings: fetching a key has no time limit of its own, so queries can wait without end, and the attempts of queries made at once add up; with a bootstrap address the key is asked for there, with a server name, and always over QUIC, the target's certificate is checked for the proxy's name; a configured SOCKS5 proxy is not used.", "quantifier": "all numbers of calls, all interleavings, all timings, all durations and failures of fetching, all addresses and options", "why_tests_cant": "waiting times depend on how many calls meet at the lock and how long each fetch takes; a key's life is a day", "anchors": ["odohclient.go: NewODoHClient, Resolve, getTargetConfig, refreshTargetKey", "dohclient.go: dohTcpTransport, dohQuicTransport", "cmd/routedns/resolver.go: instantiateResolver (odoh)"]}
{"id": "C110", "title": "What modifiers remove does not reach the servers", "statement": "In any configuration: if every way to a server passes a modifier that deletes client subnets, and none after it adds some, no query that a server gets carries a client subnet, whatever queries come (with one OPT record at most, as the standard demands), and also if it is one that elements send by themselves (prefetching, look-ups of the DNSSEC validator, refreshing caches). Likewise with a modifier that adds the subnet of a configured address, servers get no other subnet; with one that shortens subnets, no address bits beyond its lengths; with one that deletes a kind of option, no such option. So options that are removed make no difference to the replies. Finding: if a query has two OPT records, modifiers change the last one only, and the client subnet in the first is passed on.", "quantifier": "all configurations of elements, all sets of queries, all ways to servers", "why_tests_cant": "what reaches a server depends on the composition of the elements and on queries they send by themselves later", "anchors": ["ecs-modifier.go", "edns0-modifier.go", "prefetch.go", "dnssec.go", "dnssec/validator.go", "all elements: Resolve"]}
{"id": "C111", "title": "What response blocklists keep out stays out", "statement": "In any configuration in which every way from a server to the client passes a response blocklist with a certain address on it, and no element makes up answers with that address, no client gets an answer (without an error code) with it: not from a cache or its file, nor by sharing another client's answer, nor through groups, retries, prefetching or other elements in front of the lists or behind them. If lists are reloaded, this holds for addresses that are on all versions of the list since the oldest answer still stored. The same is true of lists of the only addresses allowed, and of names and texts in records, for these also in answers with error codes. Findings: in front of DNS64, a list of IPv4 addresses does not keep them out, as clients get them inside IPv6 addresses; de-duplication in front of a list of clients gives a client on the list the answer for another.", "quantifier": "all configurations of elements, all lists and their updates, all replies of servers, all contents of caches, all interleavings of queries", "why_tests_cant": "what a cache hands out depends on everything that was stored before, and the number of ways to connect elements is unlimited", "anchors": ["response-blocklist-ip.go: Resolve", "response-blocklist-name.go: Resolve", "cache.go: Resolve", "request-dedup.go: Resolve", "all elements: Resolve"]}
{"id": "C112", "title": "Records are as fresh as servers say, through whole configurations", "statement": "In any configuration without elements that raise TTLs (a least TTL, or TTLs drawn or averaged), with at most c caches and d times de-duplication on each way to a server, and if no query takes longer than D to answer: for each record a client gets, a server sent it (or the configuration says it) in answer to a query that is over by then, and the time to live that the client sees ends no later than D + c(1 s + D) + dD after the one the server gave when it was asked. So no record is handed out when its time to live is over by more than that, however caches, groups, retries, prefetching, restarts with a cache file and other elements are connected. Findings: each cache rounds down to whole seconds, so that a TTL may pass n caches in n seconds unchanged; a least TTL makes a record that is over live for any time, and with a cache in front.", "quantifier": "all configurations of elements, all histories of queries, all clocks within queries, all replies of servers", "why_tests_cant": "the age of a record depends on all caches on its way and on when each of them got it, and the number of ways to connect elements is unlimited", "anchors": ["cache.go: Resolve, answerFromCache, storeInCache", "cache-memory.go: query", "request-dedup.go: Resolve", "ttl-modifier.go: Resolve", "dns64.go: Resolve", "all elements: Resolve"]}
{"id": "C113", "title": "Routers keep names and clients away from servers", "statement": "In any configuration in which every way to certain servers leads through a router with a route that takes all queries about certain names (a route with nothing but an expression for names that matches them all) and leads, as do the routes before it, to other servers, and names are not replaced and nothing is validated or prefetched behind it: these servers are never asked about these names, whatever clients ask, in whatever order, whatever the elements have seen before and whatever servers reply; and what these servers would reply about the names makes no difference to any client. The same for clients: if the route takes all queries of certain clients (a network, or a listener), nothing these clients ask reaches the servers, unless elements before the router ask by themselves. Findings: expressions distinguish capitals (as documented, but the example configurations for internal names do not say (?i)), so that a query for the name in capitals goes to the other servers; prefetching in front of a router asks again as for a client without address, and so asks servers the router keeps that client from.", "quantifier": "all configurations of elements, all queries, all clients, all histories", "why_tests_cant": "what reaches a server depends on the composition of the elements and on queries they send by themselves later", "anchors": ["router.go: Resolve", "route.go: match, NewRoute", "blocklist.go: Resolve", "prefetch.go", "dnssec.go: Resolve", "all elements: Resolve"]}
{"id": "C114", "title": "Behind validators clients get only what was validated, in whole configurations", "statement": "In a configuration with a validating element (that does not only log) on every way from the servers to the client: every record of a positive or negative response a client gets comes from a response that passed validation (valid, or below a delegation proven unsigned), from the same part of it and unchanged but for the TTL (and for the owner if elements rename, and addresses DNS64 maps), or was made by an element as configured; if nothing validates, clients get errors or no records; so under the usual assumptions on cryptography and zones, and if no delegation can be proven unsigned, answers have only records published by a zone at or above their name. Responses with other codes pass with any records.", "quantifier": "all configurations with validators on every way, all servers, all queries, clients and histories, all validations at the same time", "why_tests_cant": "whether a cache, a group or a fallback leads around the validator depends on the whole configuration and on what was stored before", "anchors": ["dnssec.go: Resolve, stripDNSSEC", "cache.go", "request-dedup.go", "response-collapse.go", "replace.go", "dns64.go", "dnssec/validator.go"]}
{"id": "C115", "title": "What whole configurations promise holds from the start of the program on", "statement": "In every history of a program that starts with empty caches, with any queries handled one after the other or at the same time: replies belong to their queries (C76); records that response blocklists on every way object to reach no client (C111); every record a client gets was sent by a server in an earlier (or this) query of this history, with a TTL that ends at most a fixed time after the server's (C112); and with validators on every way records come from validated messages (C114). Nothing is assumed of what caches hold or what queries at the same time get.", "quantifier": "all histories of queries, all configurations, all servers, all times", "why_tests_cant": "whether old data can get round a filter depends on histories of any length", "anchors": ["cache.go: Resolve, storeInCache", "request-dedup.go: Resolve", "prefetch.go", "dnssec.go", "response-blocklist-ip.go", "response-blocklist-name.go"]}
{"id": "C116", "title": "Rate limits protect servers in whole configurations", "statement": "If certain servers are asked through one rate limiter only, wherever it is in the configuration, then the clients of one network have caused, at any time, no more queries to these servers than what the configuration allows behind the limiter for one query (C100), times the limit, times the number of windows in which the limiter was asked - however many queries clients send, at the same time or not, whatever caches, groups, prefetching or validation are in front of the limiter and whatever servers do. In general, with other ways to the servers, these add up. This holds if queries get the lock of the limiter in the order in which they read the clock. (Finding: the clock is read before the lock is taken, so that at the end of a window queries of the old and of the new window may take turns and each starts the counters anew: any number of queries of one client may get through in one window. The bound holds then with the number of times the limiter went from one window to another.)", "quantifier": "all configurations and positions of the limiter, any number of clients and queries, all interleavings of goroutines, all behaviours of servers", "why_tests_cant": "the limit is only worth something together with all ways to the servers, retries and refreshes behind it, and concurrent queries at window boundaries", "anchors": ["rate-limiter.go: Resolve", "cache.go: Resolve", "failrotate.go: Resolve", "fastest.go: Resolve", "prefetch.go: Resolve", "dnssec.go: Resolve"]}
{"id": "C117", "title": "One working server is enough, in a whole configuration", "statement": "Let some servers always answer properly and the others do anything. Then every reply a client gets, from the start of the program on, is of the kind the configuration promises: elements pass on what they get or give their documented own replies (block, limit, static, validation failure); a fail-rotate, random, load-balance or fastest group, or a fail-back group without timer, gives no error, SERVFAIL, NOTIMP or REFUSED as soon as one member, whichever, never fails; caches and de-duplication give nothing that a working configuration would not have given, also from before. (Findings: a fail-back group with timer needs the first member to work; with empty-error a proper NXDOMAIN is lost if the server asked after it is down; one client asking what all servers refuse takes all members out of a random group, and then queries of everyone fail although all servers work.)", "quantifier": "all configurations built of the modelled elements, nested in any way, all behaviours of the other servers, all histories and interleavings", "why_tests_cant": "which server is asked depends on the failures other queries have met, and what is shared or cached on all earlier replies; tests switch one server off in one group", "anchors": ["failrotate.go: FailRotate.Resolve, errorFrom", "failback.go: FailBack.Resolve, startResetTimer", "random.go: Random.Resolve, deactivate", "loadbalance.go: LoadBalance.Resolve", "fastest.go: Fastest.Resolve", "resolver.go: isSuccessResponse", "cache.go: Cache.Resolve", "request-dedup.go: requestDedup.Resolve", "router.go: Router.Resolve"]}
{"id": "C118", "title": "Availability can be read off the configuration file", "statement": "What the configuration file says about availability is what clients get. If in the file the section of a listener leads, through sections of any type, to fail-over groups of which one member's server works (type, order of members, servfail-error, empty-error and reset-after as written there, defaults included), to routers with a route without conditions, to caches in memory, to filters and to static responders, and the program starts with this file, then from then on every query with a question that an admitted client sends over UDP, TCP, TLS or DTLS gets a response with one of the codes that the sections promise: never SERVFAIL, NOTIMP or REFUSED unless a section says so, whatever the other servers named in the file do.", "quantifier": "all configuration files with which the program starts, all orders in which sections are built, all histories of queries, all behaviours of the servers not assumed to work", "why_tests_cant": "the promise depends on the whole file: which sections refer to which, in what order, with which defaults; and on all that happened before", "anchors": ["cmd/routedns/main.go: start, instantiateGroup, instantiateRouter", "cmd/routedns/config.go: group, route", "resolver.go: isSuccessResponse", "failrotate.go: FailRotate.Resolve", "failback.go: FailBack.Resolve", "route.go: NewRoute, match", "dnslistener.go: listenHandler"]}
{"id": "C119", "title": "No query is left without a reply by the way elements are put together", "statement": "Take any configuration in which lists were read, groups of type fastest have members and prefixes are numbers of eight bits. As long as each upstream server has some reply for each query it is asked, the configuration has some reply (a message, an error, or a deliberate drop) for each query from the wire: no combination of groups, routers, caches, filters and de-duplication leads into a dead end. If moreover server replies belong to the queries asked and the configuration is without the mistakes of C79, the reply is no crash and belongs to the query, for the element of each listener of a program that has started. A group of type fastest without members has no reply at all.", "quantifier": "all configurations of any size and depth, all queries, clients, servers; all libraries", "why_tests_cant": "a test sees the combinations it was written for; here elements are nested without bound, and one that cannot reply makes everything before it hang", "anchors": ["fastest.go: Fastest.Resolve", "failback.go: FailBack.Resolve", "failrotate.go: FailRotate.Resolve", "random.go: Random.Resolve", "loadbalance.go: LoadBalance.Resolve", "request-dedup.go: requestDedup.Resolve", "cache.go: Cache.Resolve", "router.go: Router.Resolve", "cmd/routedns/main.go: start"]}
{"id": "C120", "title": "Addresses and names filtered in the configuration file never reach clients", "statement": "Take a configuration file in which every way from a server to the section of a listener goes through a response blocklist (response-blocklist-ip, or -cidr) with networks written in its section, not inverted, and in which no section on the way makes up such addresses itself (static responders, templates, hosts files, DNS64). If the program starts with this file, then no positive response (NOERROR) that a UDP, TCP, TLS or DTLS listener ever sends carries an A or AAAA record with an address of these networks, in any section, whatever the servers send, whatever order records are shuffled in, and whatever was cached or is shared by queries under way. Likewise, if the filters are response blocklists for names (response-blocklist-name, formats domain, domain-subdomain and regexp) with rules written in their sections, no message such a listener ever sends, with any code, carries a record that points to a name these rules are about.", "quantifier": "all configuration files of this kind, of any size and depth; all orders in which sections are built; all histories of queries and all behaviours of servers; all lists, addresses and names", "why_tests_cant": "one way around the filter in a file of any size is enough; a test sends some addresses through one filter, and the cached, shared and forwarded replies depend on all that happened before", "anchors": ["cmd/routedns/main.go: start, instantiateGroup, newIPBlocklistDB", "response-blocklist-ip.go: ResponseBlocklistIP.Resolve", "response-blocklist-name.go: ResponseBlocklistName.Resolve", "ip-blocklist-trie.go: ipBlocklistTrie", "cache.go: Cache.Resolve", "static.go: StaticResolver.Resolve", "blocklist.go: Blocklist.Resolve", "dnslistener.go: listenHandler"]}
{"id": "C121", "title": "Validation in the configuration file covers every record clients get", "statement": "Take a configuration file in which every way from a server to the section of a listener goes through a section of type dnssec-validator that does not only log. If the program starts with this file, then each record (other than OPT) of a NOERROR or NXDOMAIN response that a UDP, TCP, TLS or DTLS listener ever sends was written in the file (static responders and templates), or comes from a message that the elements behind a validator have sent, in the same part of it (answer, or the rest), and whose validation did not end as bogus; if no section on the way renames records (response-collapse, replace, dns64), with the same owner, type, class and data.", "quantifier": "all configuration files of this kind, of any size and depth; all orders in which sections are built; all histories of queries, all behaviours of servers and all outcomes of validations", "why_tests_cant": "it depends on the whole file and on everything that was cached before; a test validates some answers in one configuration", "anchors": ["cmd/routedns/main.go: start, instantiateGroup", "dnssec.go: DNSSECValidator.Resolve", "cache.go: Cache.Resolve", "request-dedup.go: requestDedup.Resolve", "response-collapse.go: ResponseCollapse.Resolve", "replace.go: Replace.Resolve", "dnslistener.go: listenHandler"]}
{"id": "C122", "title": "How stale records can get can be read off the configuration file", "statement": "Take a configuration file in which no section behind a listener raises TTLs (ttl-modifier with a minimum or with a selection other than lowest, fastest-tcp with success-ttl-min). If the program starts with this file, then each record (other than OPT) of a message that a UDP, TCP, TLS or DTLS listener ever sends was sent by a server before (or is written in the file), and the time to live that the client sees ends at most D + n (1 s + D) + k D after the one the server gave, where n and k are the numbers of sections of type cache and of type request-dedup that lie one behind the other in the file, and D is the longest time the handling of a query takes.", "quantifier": "all configuration files of this kind, of any size and depth; all orders in which sections are built; all histories of queries, all times and all behaviours of servers", "why_tests_cant": "it depends on all earlier queries and when they came; a test looks at one cache and a few moments", "anchors": ["cmd/routedns/main.go: start, instantiateGroup", "cache.go: Cache.Resolve", "request-dedup.go: requestDedup.Resolve", "ttl-modifier.go: TTLModifier.Resolve", "fastest-tcp.go: FastestTCP.Resolve", "dnslistener.go: listenHandler"]}
{"id": "C123", "title": "What servers get to know about clients can be read off the configuration file", "statement": "Take a configuration file, and the ways in it from the section a listener names to servers (or to scripts and Redis caches, of which nothing is claimed beyond what they get). If on every way there is a section that deletes client subnets, and none after it that adds any, and the program starts with this file, then no query that a server ever gets on behalf of this listener carries a client subnet, including those that sections send by themselves (prefetching, validation). Likewise, with a section that puts the subnet of a configured address, servers get no other subnet; with one that shortens subnets, no address bits beyond its lengths; with one that deletes a kind of option, no such option. Queries that come in have one OPT record at most, as the standard demands (finding of C110).", "quantifier": "all configuration files of any size and depth; all orders in which sections are built; all sets of queries; all ways in the file", "why_tests_cant": "it depends on the whole file; a test tries one file and a few queries", "anchors": ["cmd/routedns/main.go: start, instantiateGroup", "ecs-modifier.go: ECSModifier.Resolve, ECSModifierDelete, ECSModifierAdd, ECSModifierPrivacy", "edns0-modifier.go: EDNS0Modifier.Resolve", "prefetch.go", "dnssec.go"]}
{"id": "C124", "title": "Which names and clients are kept from which servers can be read off the configuration file", "statement": "Take a configuration file, some of its servers and some names. If every way in the file from the section a listener names to these servers goes through a router in which a route with only an expression for names matches all these names, and this route and those before it lead elsewhere (or through a blocklist for the names), with no sections behind it that change names or ask by themselves, and the program starts with this file, then no query about these names ever gets to these servers, and what these servers would say about them makes no difference to replies. Likewise for clients from a network, or at a listener, for which a route with only that condition leads elsewhere; there, sections in front of the router that ask by themselves must have no way to the servers. Sections with scripts and Redis caches are left out.", "quantifier": "all configuration files of any size and depth; all orders in which sections are built; all queries, clients, times and behaviours of servers", "why_tests_cant": "it depends on the whole file and on all names and clients; a test tries a few", "anchors": ["cmd/routedns/main.go: start, instantiateGroup, instantiateRouter", "router.go: Router.Resolve", "route.go: NewRoute, route.match", "blocklist.go", "prefetch.go", "dnssec.go", "replace.go"]}
{"id": "C125", "title": "Sockets towards servers are made in the configured namespace with the configured options", "statement": "Every socket a resolver opens towards its server, or towards its SOCKS5 proxy, carries the firewall mark and is bound to the interface of its section before it is bound or connected, for all protocols and transports; it is made in the namespace given by netns, by the server given by xsocket, or in the program's own namespace if neither is given. If the namespace cannot be entered, no socket is handed out or an option is refused, then nothing is sent without it. With a proxy the resolvers that support one connect to nothing but the proxy (and its relay for UDP). The exception, exactly: over TCP with netns, when the library that dials looks up a name itself (the proxy's when options are set, the server's when the look-up before gave nothing) and gets addresses of both families, the connections come from the program's own namespace. DoQ, DTLS, ODoH and DoH over QUIC ignore socks5-address.", "quantifier": "all resolver sections, all answers of the operating system, the name service and the proxy, any number of connections", "why_tests_cant": "A leak past a namespace, a mark or a proxy happens on rare paths (a failed look-up, a name with two families, a refused option), for one of many protocols; tests try few combinations and need privileges.", "anchors": ["cmd/routedns/resolver.go: instantiateResolver, socks5DialerFromConfig", "dnsclient.go: GenericDNSClient.Dial", "dohclient.go: dohTcpTransport, dohQuicTransport, dohDualStackQuicTransport", "doqclient.go: newQuicConnection", "dtlsclient.go: dtlsDialer.Dial", "socks5.go: NewSocks5Dialer, socks5SockOptsDialer", "netns_linux.go: RunInNetNS, DialInNetNS", "xsocket_linux.go: dialXSocket", "sockopts_linux.go: applyToFd, dialerControl"]}
{"id": "C126", "title": "Rate limits on whole configurations can be read off the configuration file", "statement": "Take a configuration file with one rate limiter, and some of its servers. Write a number next to each section: at least 1 at these servers, and elsewhere enough for what the section makes of one query (members times the dearest one for groups that fail over, the sum for fastest, both for a retry or an alternative after the reply, twice for dns64, the dearest for others; at the limiter only what its limit-resolver costs). If the program starts with this file, then whatever clients ask, at the same time or not: they have caused no more queries to these servers than the numbers next to the sections their queries came in at, and for each query the limiter let through the number behind the limiter. If the former are 0, the clients of one network (of prefix4 or prefix6 bits) cause at most requests times the number behind the limiter in each window, as long as queries get to the lock in the order of their clock readings. Sections that ask by themselves must have no way to the servers but through the limiter; scripts and Redis caches are left out.", "quantifier": "all configuration files of any size and depth with one rate limiter on the ways considered; all orders in which sections are built; any number of concurrent queries, clients, schedules and behaviours of servers", "why_tests_cant": "the number of queries a file can make of one is a matter of its whole shape, and limits are about all mixes of clients and times; a test tries one file and a few queries", "anchors": ["cmd/routedns/main.go: start, instantiateGroup, instantiateRouter", "cmd/routedns/config.go: group", "rate-limiter.go: NewRateLimiter, RateLimiter.Resolve"]}
{"id": "C127", "title": "Reply times and numbers of queries can be read off the configuration file", "statement": "Take a configuration file the program starts with. Write a time next to each section: at servers the longest they take to answer or fail, elsewhere enough for what the section refers to (members times the slowest one for groups that fail over, the slowest for fastest and for elements that pass on or choose, the sum for a retry or an alternative after the reply, twice for dns64). Then each query, among any number at the same time, has its reply, was dropped or failed within the time next to the section its listener leads to, unless a goroutine panicked. Write a number of queries next to each section by the like rule (1 at servers, the sum for fastest): then servers are never asked more often than the numbers next to the sections the queries came in for. Without any such rule, for all files (whose fastest groups have members): every run comes to an end with all queries done, or with a panic.", "quantifier": "all configuration files of any size and depth; times for files without dnssec-validator and fastest-tcp, numbers for files without dnssec-validator and prefetch, on the ways considered; all orders in which sections are built; any number of concurrent queries, arrival times, schedules and behaviours of servers", "why_tests_cant": "how long a query may take and how many it may become depend on the shape of the whole file and on all interleavings and failures; a test sees one file, one schedule and some delays", "anchors": ["cmd/routedns/main.go: start, instantiateGroup, instantiateRouter", "cmd/routedns/config.go: group", "failrotate.go", "failback.go", "fastest.go", "truncate-retry.go", "dns64.go"]}
{"id": "C128", "title": "Caches are saved when the program is stopped", "statement": "When the program ends after an interrupt, SIGTERM or SIGHUP, the file of every cache in memory that has one holds exactly what the cache had at some moment after the signal, if saving that cache did not fail and no other cache has the same file - also if a regular save is under way when the signal comes or begins while the program stops, if queries go on changing the caches, and if further signals come. The stop cannot get stuck, and a cache that cannot be saved does not keep others from being saved. After a restart with the same size, such a cache answers every look-up as the old one would have done at some moment after the signal. At every moment a file is as the program found it or has exactly what its cache had at some moment, and files that are not configured are not touched. (Finding: two caches with the same file name write over each other; the file then has what one of them had after the signal.)", "quantifier": "any number of caches, with and without files; all interleavings of the stop with regular saves, queries and further signals; any set of saves that fail", "why_tests_cant": "whether an older save may land after the last one depends on the schedule; a test stops an idle program with one cache", "anchors": ["cmd/routedns/main.go: start, instantiateGroup, onClose", "cache-memory.go: Close, writeToFile, intervalSave"]}
