{
 "claims": [
  {
   "property": "C01",
   "status": "proved",
   "theorems": [
    "Verif.Props.Cache.cache_never_stale",
    "Verif.Props.Cache.cache_never_panics",
    "Verif.Props.Cache.cache_resolve_sound",
    "Verif.Props.Cache.cache_several_questions",
    "Verif.Props.Cache.hit_justified"
   ],
   "note": "Every interleaving of store/get/evict/gc/flush/restart; message codec, hash and clock readings arbitrary."
  },
  {
   "property": "C02",
   "status": "proved",
   "theorems": [
    "Verif.Props.Cache.cache_hit_is_last_stored",
    "Verif.Props.Cache.hit_justified",
    "Verif.Props.Cache.cache_resolve_sound",
    "Verif.Props.Lru.lru_get_never_crosses_keys",
    "Verif.Props.Lru.lru_unbounded_exact"
   ],
   "note": "arbitrary hash function; histories of add/get/delete/conditional delete/reset"
  },
  {
   "property": "C03",
   "status": "proved",
   "theorems": [
    "Verif.Props.Lru.lru_refines_list",
    "Verif.Props.Lru.lru_unbounded_exact"
   ],
   "note": "pointer-level heap model refines a recency list"
  },
  {
   "property": "C04",
   "status": "proved",
   "theorems": [
    "Verif.Props.Lru.lru_capacity",
    "Verif.Props.Lru.lru_evicts_least_recently_used"
   ],
   "note": ""
  },
  {
   "property": "C05",
   "status": "proved",
   "theorems": [
    "Verif.Props.Blob.blob_roundtrip",
    "Verif.Props.Blob.blob_matches_iff",
    "Verif.Props.Blob.blob_encode_isSome",
    "Verif.Props.Blob.blob_matches_total",
    "Verif.Props.Blob.blob_keyRegion_eq_iff"
   ],
   "note": ""
  },
  {
   "property": "C06",
   "status": "proved",
   "theorems": [
    "Verif.Props.Cache.cache_file_roundtrip",
    "Verif.Props.Cache.load_skips_bad"
   ],
   "note": "Observational equivalence for every continuation. Assumes Pack output is non-empty and accepted by Unpack; the text encoding of the record file is not modelled."
  },
  {
   "property": "C07",
   "status": "proved",
   "theorems": [
    "Verif.Props.Cache.cache_lifetime",
    "Verif.Props.Cache.cache_lifetime_servfail",
    "Verif.Props.Cache.cache_lifetime_limit",
    "Verif.Props.Cache.cache_admission",
    "Verif.Props.Cache.negative_ttl_default",
    "Verif.Props.Cache.lifetime_max_ttl"
   ],
   "note": "lifetime_max_ttl is the exception found: a response whose TTLs are all 4294967295 is kept for the negative TTL."
  },
  {
   "property": "C08",
   "status": "proved",
   "theorems": [
    "Verif.Props.Cache.cache_hardening_exact",
    "Verif.Props.Cache.cache_hardening_sound",
    "Verif.Props.Cache.higherNames_spec",
    "Verif.Props.Cache.hardening_escaped_dot"
   ],
   "note": "\"Higher name\" is what follows a dot in the text form. For names with escaped dots this is not an ancestor: hardening_escaped_dot is the counterexample."
  },
  {
   "property": "C09",
   "status": "proved",
   "theorems": [
    "Verif.Props.Redis.redis_codec_roundtrip",
    "Verif.Props.Redis.redis_decode_rejects",
    "Verif.Props.Redis.redis_decode_total",
    "Verif.Props.Redis.redis_never_stale"
   ],
   "note": "JSON and base64 of the record are not modelled; the record fields are."
  },
  {
   "property": "C10",
   "status": "proved",
   "theorems": [
    "Verif.Props.Redis.redis_key_separates",
    "Verif.Props.Redis.redis_key_same",
    "Verif.Props.Redis.redis_key_two_subnets"
   ],
   "note": "redis_key_two_subnets: with two subnet options in one query the key is ambiguous (finding)."
  },
  {
   "property": "C11",
   "status": "proved",
   "theorems": [
    "Verif.Props.Shuffle.shuffle_random_rearranges",
    "Verif.Props.Shuffle.shuffle_roundrobin_rearranges",
    "Verif.Props.Shuffle.shuffle_roundrobin_fair"
   ],
   "note": ""
  },
  {
   "property": "C12",
   "status": "proved",
   "theorems": [
    "Verif.Props.Group.failrotate_sequential",
    "Verif.Props.Group.failrotate_complete",
    "Verif.Props.Group.failback_zero_reset"
   ],
   "note": ""
  },
  {
   "property": "C13",
   "status": "proved",
   "theorems": [
    "Verif.Props.Group.Rotate.failrotate_active_valid",
    "Verif.Props.Group.Rotate.failrotate_attempts",
    "Verif.Props.Group.Rotate.failrotate_failover_caused",
    "Verif.Props.Group.Rotate.failrotate_report",
    "Verif.Props.Group.Rotate.failrotate_concurrent_complete",
    "Verif.Props.Group.Back.failback_active_valid"
   ],
   "note": "All interleavings of any number of queries."
  },
  {
   "property": "C14",
   "status": "proved",
   "theorems": [
    "Verif.Props.Group.Back.failback_timer_or_signal",
    "Verif.Props.Group.Back.failback_progress",
    "Verif.Props.Group.Back.failback_settles",
    "Verif.Props.Group.Back.failback_returns",
    "Verif.Props.Group.failback_zero_reset",
    "Verif.Props.Group.Back.failback_concurrent_complete",
    "Verif.Props.Group.Back.failback_reset_loses_query"
   ],
   "note": "failback_reset_loses_query: the timer firing in the middle of a query can make it fail although a member works (finding)."
  },
  {
   "property": "C15",
   "status": "proved",
   "theorems": [
    "Verif.Props.Group.roundrobin_fair",
    "Verif.Props.Group.roundrobin_valid"
   ],
   "note": ""
  },
  {
   "property": "C16",
   "status": "proved",
   "theorems": [
    "Verif.Props.Group.Random.random_loses_nothing",
    "Verif.Props.Group.Random.random_ends",
    "Verif.Props.Group.Random.random_failed_not_picked"
   ],
   "note": ""
  },
  {
   "property": "C17",
   "status": "proved",
   "theorems": [
    "Verif.Props.Balance.loadbalance_each_once",
    "Verif.Props.Balance.loadbalance_pick_weighted",
    "Verif.Props.Balance.loadbalance_pick_valid",
    "Verif.Props.Balance.loadbalance_walk_valid",
    "Verif.Props.Balance.loadbalance_weight",
    "Verif.Props.Balance.loadbalance_pick_uniform",
    "Verif.Props.Balance.swapRemove_perm"
   ],
   "note": "Floating point is idealised as rationals; C105 has it with rounding."
  },
  {
   "property": "C18",
   "status": "proved",
   "theorems": [
    "Verif.Props.Balance.sample_ge_one",
    "Verif.Props.Balance.loadbalance_average_bounds",
    "Verif.Props.Balance.loadbalance_average_min",
    "Verif.Props.Balance.loadbalance_failure_never_rewards",
    "Verif.Props.Balance.loadbalance_first_failure",
    "Verif.Props.Balance.loadbalance_recovers",
    "Verif.Props.Balance.loadbalance_success",
    "Verif.Props.Balance.loadbalance_small_penalty_rewards"
   ],
   "note": "Floating point is idealised as rationals; C105 has it with rounding."
  },
  {
   "property": "C19",
   "status": "proved",
   "theorems": [
    "Verif.Props.Balance.fastest_first_good",
    "Verif.Props.Balance.fastest_all_bad",
    "Verif.Props.Balance.fastest_terminates",
    "Verif.Props.Balance.fastest_good_iff",
    "Verif.Props.Balance.fastest_empty_group"
   ],
   "note": "fastest_empty_group: an empty group blocks forever."
  },
  {
   "property": "C20",
   "status": "proved",
   "theorems": [
    "Verif.Props.Balance.Tcp.tcp_waitall",
    "Verif.Props.Balance.Tcp.tcp_fastest_first",
    "Verif.Props.Balance.Tcp.tcp_fastest_exact",
    "Verif.Props.Balance.Tcp.tcp_fastest_ends",
    "Verif.Props.Balance.Tcp.tcp_fastest_failure",
    "Verif.Props.Balance.Tcp.tcp_waitall_failure",
    "Verif.Props.Balance.Tcp.tcp_passthrough",
    "Verif.Props.Balance.Tcp.tcp_no_choice",
    "Verif.Props.Balance.Tcp.bubble_spec",
    "Verif.Props.Balance.Tcp.tcp_fastest_loses_record"
   ],
   "note": "tcp_fastest_exact says in full what first-result mode does. Finding: it loses the last probed record unless the fastest address is the first or the last (tcp_fastest_loses_record)."
  },
  {
   "property": "C21",
   "status": "proved",
   "theorems": [
    "Verif.Props.Rate.rate_limit_exact",
    "Verif.Props.Rate.rate_same_network",
    "Verif.Props.Rate.rate_defaults",
    "Verif.Props.Rate.rate_dest",
    "Verif.Props.Rate.rate_backwards_clock",
    "Verif.Props.Rate.rate_nil_map",
    "Verif.Props.Rate.rate_prefix_too_long"
   ],
   "note": "The last three are counterexamples outside the hypotheses."
  },
  {
   "property": "C22",
   "status": "proved",
   "theorems": [
    "Verif.Props.Dedup.dedup_answer",
    "Verif.Props.Dedup.dedup_one_upstream",
    "Verif.Props.Dedup.dedup_progress",
    "Verif.Props.Dedup.dedup_all_return"
   ],
   "note": "All interleavings of any number of callers."
  },
  {
   "property": "C23",
   "status": "proved",
   "theorems": [
    "Verif.Props.Dedup.dedup_key_separates",
    "Verif.Props.Dedup.dedup_key_merges",
    "Verif.Props.Dedup.dedup_merges_zero_subnet",
    "Verif.Props.Dedup.dedup_ignores_later_subnets",
    "Verif.Props.Dedup.dedup_ignores_opcode"
   ],
   "note": "The last three are findings: pairs of different queries that are merged, outside the hypotheses of dedup_key_separates."
  },
  {
   "property": "C24",
   "status": "proved",
   "theorems": [
    "Verif.Props.Pipeline.pipeline_answer",
    "Verif.Props.Pipeline.pipeline_outstanding_unique",
    "Verif.Props.Pipeline.pipeline_ids_distinct",
    "Verif.Props.Pipeline.pipeline_no_panic",
    "Verif.Props.Pipeline.pipeline_sends",
    "Verif.Props.Pipeline.pipeline_not_lost",
    "Verif.Props.Pipeline.pipeline_drain",
    "Verif.Props.Pipeline.pipeline_timeout",
    "Verif.Props.Pipeline.pipeline_completed",
    "Verif.Props.Pipeline.pipeline_id_available",
    "Verif.Props.Pipeline.pipeline_can_send",
    "Verif.Props.Pipeline.pipeline_sends_abandoned"
   ],
   "note": "All interleavings of callers, manager, writer, reader, timers and all network behaviours. That every caller returns is proved as: its timer can always end the call. pipeline_sends_abandoned is a finding."
  },
  {
   "property": "C25",
   "status": "proved",
   "theorems": [
    "Verif.Props.Elements.ttl_limits",
    "Verif.Props.Elements.ttl_select",
    "Verif.Props.Elements.ttl_within",
    "Verif.Props.Elements.ttl_no_records",
    "Verif.Props.Elements.ttl_passthrough",
    "Verif.Props.Elements.ttl_no_maximum"
   ],
   "note": ""
  },
  {
   "property": "C26",
   "status": "proved",
   "theorems": [
    "Verif.Props.Elements.truncate_retry_exact"
   ],
   "note": ""
  },
  {
   "property": "C27",
   "status": "proved",
   "theorems": [
    "Verif.Props.Elements.collapse_keeps",
    "Verif.Props.Elements.collapse_empty",
    "Verif.Props.Elements.collapse_passthrough",
    "Verif.Props.Elements.collapse_any_query",
    "Verif.Props.Elements.minimize_exact",
    "Verif.Props.Elements.minimize_passthrough",
    "Verif.Props.Elements.minimize_drops_edns"
   ],
   "note": "collapse_any_query and minimize_drops_edns are findings."
  },
  {
   "property": "C28",
   "status": "proved",
   "theorems": [
    "Verif.Props.Domain.domain_match_iff",
    "Verif.Props.Domain.domain_complete",
    "Verif.Props.Domain.domain_reported",
    "Verif.Props.Domain.domain_order",
    "Verif.Props.Domain.domain_load_iff",
    "Verif.Props.Domain.domain_case_and_dot",
    "Verif.Props.Domain.domain_hole_overblocks",
    "Verif.Props.Domain.domain_blank_line_blocks_root"
   ],
   "note": "The maps of the list are modelled as a heap, so that the two maps shared between rules and their copies are covered. Findings: a line with an empty label in the middle (a..b) blocks everything below b; an empty line blocks queries for the root."
  },
  {
   "property": "C29",
   "status": "proved",
   "theorems": [
    "Verif.Props.Lists.hosts_fields",
    "Verif.Props.Lists.hosts_match",
    "Verif.Props.Lists.hosts_ptr",
    "Verif.Props.Lists.hosts_trailing_comment_blocks",
    "Verif.Props.Lists.regexp_match",
    "Verif.Props.Lists.regexp_upper_case_never"
   ],
   "note": "net.ParseIP (giving nothing or 16 bytes), dns.ReverseAddr and regular expressions are parameters. Findings: up to 11 addresses are given where the limit in the code is 10; words of a comment behind a name are blocked; an expression asking for an upper-case letter never matches."
  },
  {
   "property": "C30",
   "status": "proved",
   "theorems": [
    "Verif.Props.Cidr.cidr_match_iff",
    "Verif.Props.Cidr.cidr_match_rule",
    "Verif.Props.Cidr.cidr_load_iff",
    "Verif.Props.Cidr.normalize_text",
    "Verif.Props.Cidr.cidr_order",
    "Verif.Props.Cidr.cidr_mapped_wrong"
   ],
   "note": "net.ParseCIDR is a parameter. cidr_mapped_wrong is a finding: networks written in IPv4-mapped form are matched wrongly."
  },
  {
   "property": "C31",
   "status": "proved",
   "theorems": [
    "Verif.Props.Lists.mac_parse_iff",
    "Verif.Props.Lists.mac_match_iff",
    "Verif.Props.Lists.mac_load_iff"
   ],
   "note": ""
  },
  {
   "property": "C32",
   "status": "proved",
   "theorems": [
    "Verif.Props.Lists.multi_match",
    "Verif.Props.Lists.multi_reload",
    "Verif.Props.Lists.refresh_last_good",
    "Verif.Props.Lists.refresh_multi_failure",
    "Verif.Props.Lists.list_never_used_closed"
   ],
   "note": "All interleavings of queries and reloads for the closing of replaced lists."
  },
  {
   "property": "C33",
   "status": "proved",
   "theorems": [
    "Verif.Props.Blocklist.blocklist_allow",
    "Verif.Props.Blocklist.blocklist_pass",
    "Verif.Props.Blocklist.blocklist_block",
    "Verif.Props.Blocklist.blocklist_upstream_iff",
    "Verif.Props.Blocklist.blocklist_spoof_order",
    "Verif.Props.Blocklist.blocklist_domains",
    "Verif.Props.Blocklist.ede_content"
   ],
   "note": "Text templates are functions that may fail."
  },
  {
   "property": "C34",
   "status": "proved",
   "theorems": [
    "Verif.Props.Blocklist.client_address",
    "Verif.Props.Blocklist.client_blocklist"
   ],
   "note": ""
  },
  {
   "property": "C35",
   "status": "proved",
   "theorems": [
    "Verif.Props.Blocklist.response_ip_clean",
    "Verif.Props.Blocklist.response_ip_block",
    "Verif.Props.Blocklist.response_ip_filter",
    "Verif.Props.Blocklist.response_ip_passthrough",
    "Verif.Props.Blocklist.response_ip_unchecked_codes",
    "Verif.Props.Blocklist.response_ip_nodata_denied"
   ],
   "note": "Findings: responses with other codes than success are not checked; filter mode turns an empty answer into NXDOMAIN."
  },
  {
   "property": "C36",
   "status": "proved",
   "theorems": [
    "Verif.Props.Blocklist.response_name",
    "Verif.Props.Blocklist.response_name_passthrough",
    "Verif.Props.Blocklist.response_name_domains"
   ],
   "note": ""
  },
  {
   "property": "C37",
   "status": "proved",
   "theorems": [
    "Verif.Props.Route.router_first_match"
   ],
   "note": "Routes are arbitrary; the clock may read a different time at every route."
  },
  {
   "property": "C38",
   "status": "proved",
   "theorems": [
    "Verif.Props.Route.route_matches_iff",
    "Verif.Props.Route.route_time_parse",
    "Verif.Props.Route.route_contains",
    "Verif.Props.Route.route_window_across_midnight"
   ],
   "note": "From the configuration text to the match. Regular expressions, ParseCIDR and the type-name table are parameters. Finding: a window across midnight never matches."
  },
  {
   "property": "C39",
   "status": "proved",
   "theorems": [
    "Verif.Props.Modifiers.ecs_delete",
    "Verif.Props.Modifiers.ecs_add",
    "Verif.Props.Modifiers.ecs_add_if_missing",
    "Verif.Props.Modifiers.ecs_privacy",
    "Verif.Props.Modifiers.ecs_privacy_widens",
    "Verif.Props.Modifiers.ecs_add_bad_prefix"
   ],
   "note": "Findings: privacy widens a shorter mask; a prefix over 32 sends an empty address."
  },
  {
   "property": "C40",
   "status": "proved",
   "theorems": [
    "Verif.Props.Modifiers.edns0_delete",
    "Verif.Props.Modifiers.edns0_add",
    "Verif.Props.Modifiers.edns0_add_exactly_one"
   ],
   "note": ""
  },
  {
   "property": "C41",
   "status": "proved",
   "theorems": [
    "Verif.Props.Listeners.dns_listener",
    "Verif.Props.Modifiers.pad_query",
    "Verif.Props.Modifiers.pad_answer",
    "Verif.Props.Modifiers.pad_hides",
    "Verif.Props.Modifiers.pad_within_limit",
    "Verif.Props.Modifiers.strip_padding",
    "Verif.Props.Modifiers.pad_query_panics"
   ],
   "note": "The packed length is a parameter with the facts about options it needs. Finding: an option with code 12 made by the EDNS0 modifier makes the padding of queries panic."
  },
  {
   "property": "C42",
   "status": "proved",
   "theorems": [
    "Verif.Props.Dns64.dns64_embeds",
    "Verif.Props.Dns64.dns64_recover",
    "Verif.Props.Dns64.dns64_passes",
    "Verif.Props.Dns64.dns64_keeps",
    "Verif.Props.Dns64.dns64_synthesizes",
    "Verif.Props.Dns64.dns64_prefixes",
    "Verif.Props.Dns64.dns64_96_nonzero_u"
   ],
   "note": "Finding: a /96 prefix with nonzero bits 64-71 is accepted."
  },
  {
   "property": "C43",
   "status": "proved",
   "theorems": [
    "Verif.Props.Static.static_config",
    "Verif.Props.Static.static_answers",
    "Verif.Props.Static.static_blank_panics",
    "Verif.Props.Static.template_answers",
    "Verif.Props.Static.static_fresh",
    "Verif.Props.Static.static_isolated"
   ],
   "note": "The text parser of records is a parameter. Isolation is over all runs of a memory model with explicit addresses. Finding: a configured text without a record makes every query panic."
  },
  {
   "property": "C44",
   "status": "proved",
   "theorems": [
    "Verif.Props.Static.replace_unchanged",
    "Verif.Props.Static.replace_undone",
    "Verif.Props.Static.replace_order",
    "Verif.Props.Static.replace_case"
   ],
   "note": "Regular expressions are arbitrary functions on names. Finding: the rewritten name in another case is not restored."
  },
  {
   "property": "C45",
   "status": "proved",
   "theorems": [
    "Verif.Props.AtomicFile.atomic_old_or_new",
    "Verif.Props.AtomicFile.atomic_crash",
    "Verif.Props.AtomicFile.atomic_mode",
    "Verif.Props.AtomicFile.atomic_changes",
    "Verif.Props.AtomicFile.atomic_success",
    "Verif.Props.AtomicFile.atomic_no_leftovers",
    "Verif.Props.AtomicFile.sweep_exact",
    "Verif.Props.AtomicFile.sweep_spares_fresh",
    "Verif.Props.AtomicFile.atomic_crash_may_undo"
   ],
   "note": "All interleavings of any number of writers and sweeps, with kills and errors between any two system calls. The file system after a machine crash is described by AtomicFile.Crash. Finding: the directory is not synced, so a crash can bring the old content back after success was reported."
  },
  {
   "property": "C46",
   "status": "proved",
   "theorems": [
    "Verif.Props.Loader.scan_lines",
    "Verif.Props.Loader.scan_too_long",
    "Verif.Props.Loader.load_strict",
    "Verif.Props.Loader.load_keeps_last_good",
    "Verif.Props.Loader.local_keeps_last_good",
    "Verif.Props.Loader.cache_roundtrip",
    "Verif.Props.Loader.cache_restart",
    "Verif.Props.Loader.cache_loses_cr"
   ],
   "note": "Finding: a rule that ends with a carriage return does not survive the cache file."
  },
  {
   "property": "C47",
   "status": "proved",
   "theorems": [
    "Verif.Props.Dnssec.nsec_no_ds_sound",
    "Verif.Props.Dnssec.nsec3_no_ds_sound",
    "Verif.Props.Dnssec.validated_answers_signed",
    "Verif.Props.Dnssec.validated_denial_signed",
    "Verif.Props.Dnssec.insecure_is_proven",
    "Verif.Props.Dnssec.no_anchor_nothing_trusted",
    "Verif.Props.Dnssec.no_anchor_fails_closed",
    "Verif.Props.Dnssec.chain_terminates",
    "Verif.Props.Dnssec.trusted_own",
    "Verif.Props.Dnssec.validated_is_published",
    "Verif.Props.Dnssec.validated_denial_true",
    "Verif.Props.Dnssec.root_anchors_add_up",
    "Verif.Props.Dnssec.only_answer_matters",
    "Verif.Props.Dnssec.only_signatures_accepted",
    "Verif.Props.Dnssec.nil_response_panics",
    "Verif.Props.Dnssec.ds_owner_ignored",
    "Verif.Props.Dnssec.verdict_depends_on_map_order",
    "Verif.Props.Dnssec.keys_outlive_signatures",
    "Verif.Props.Dnssec.sub_anchor_ignored",
    "Verif.Props.Dnssec.parent_zone_exact",
    "Verif.Props.Dnssec.parent_zone_escaped_dot"
   ],
   "note": "All interleavings of any number of validations on one store, with an adversarial resolver, any map order and any clock that does not go backwards. The cryptography is a parameter. Findings: an answer of signatures only is accepted, the owner of DS records is not checked, question, response code and authority section are ignored if there is an answer, the verdict depends on map order, keys outlive their signatures, anchors below the root have no effect, an empty reply of the resolver panics."
  },
  {
   "property": "C48",
   "status": "proved",
   "theorems": [
    "Verif.Props.Dnssec.canonical_order_rfc",
    "Verif.Props.Dnssec.canonical_order_total",
    "Verif.Props.Dnssec.canonical_order_strict",
    "Verif.Props.Dnssec.canonical_order_contiguous"
   ],
   "note": "For the presentation form of every name, including escapes. Finding under C47: parentZone splits at an escaped dot."
  },
  {
   "property": "C49",
   "status": "proved",
   "theorems": [
    "Verif.Props.Dnssec.nsec_nxdomain_sound",
    "Verif.Props.Dnssec.nsec_nodata_sound",
    "Verif.Props.Dnssec.nsec_denial_cases",
    "Verif.Props.Dnssec.nsec_no_ds_sound",
    "Verif.Props.Dnssec.nsec_root_wildcard",
    "Verif.Props.Dnssec.nsec_empty_nonterminal",
    "Verif.Props.Dnssec.nsec_parent_side"
   ],
   "note": "Zones are arbitrary. Findings: the wildcard below the root is not recognised, the name of an empty non-terminal can be denied, and an NSEC record of the parent side of a cut is taken for names below it."
  },
  {
   "property": "C50",
   "status": "proved",
   "theorems": [
    "Verif.Props.Dnssec.nsec3_nxdomain_sound",
    "Verif.Props.Dnssec.nsec3_nxdomain_optout",
    "Verif.Props.Dnssec.nsec3_nodata_sound",
    "Verif.Props.Dnssec.nsec3_ds_sound",
    "Verif.Props.Dnssec.nsec3_denial_cases",
    "Verif.Props.Dnssec.nsec3_no_ds_sound",
    "Verif.Props.Dnssec.nsec3_owner_taken_as_covered",
    "Verif.Props.Dnssec.nsec3_optout_wildcard"
   ],
   "note": "The hash is a parameter, without collisions among the names considered. Match and Cover of the DNS library are modelled. Findings: the owner of a record counts as covered, and an opt-out record can deny a wildcard."
  },
  {
   "property": "C51",
   "status": "proved",
   "theorems": [
    "Verif.Props.Keystore.keystore_right",
    "Verif.Props.Keystore.keystore_once",
    "Verif.Props.Keystore.keystore_pending",
    "Verif.Props.Keystore.served_keys_alive"
   ],
   "note": "Linearizability for all interleavings of any number of operations at the granularity of the locks; the sync.Map is modelled as atomic operations."
  },
  {
   "property": "C52",
   "status": "proved",
   "theorems": [
    "Verif.Props.DnssecResolver.upstream_asked",
    "Verif.Props.DnssecResolver.failure_passed_on",
    "Verif.Props.DnssecResolver.bogus_blocked",
    "Verif.Props.DnssecResolver.valid_shown",
    "Verif.Props.DnssecResolver.unvalidated_shown",
    "Verif.Props.DnssecResolver.ad_means_validated",
    "Verif.Props.DnssecResolver.without_hidden",
    "Verif.Props.DnssecResolver.upstream_ad_passed_on",
    "Verif.Props.DnssecResolver.no_question_panics",
    "Verif.Props.DnssecResolver.anchors_chosen",
    "Verif.Props.DnssecResolver.fetched_anchors",
    "Verif.Props.DnssecResolver.anchor_not_yet_valid"
   ],
   "note": "The validator is a parameter. Findings proved: an AD bit set by the upstream is passed on for data that was not validated, validFrom of a fetched anchor is ignored."
  },
  {
   "property": "C53",
   "status": "proved",
   "theorems": [
    "Verif.Props.Listeners.dns_listener",
    "Verif.Props.Listeners.datagram_fits",
    "Verif.Props.Listeners.doh_listener",
    "Verif.Props.Listeners.doq_listener",
    "Verif.Props.Listeners.udp_restricted_not_cut",
    "Verif.Props.Listeners.doq_long_response"
   ],
   "note": "The pipeline, Pack, Unpack and Truncate are parameters; that Truncate keeps its promise is the hypothesis Truncates. Findings: a UDP listener restricted to IPv4 or IPv6 never truncates, and the DoQ listener sends a wrong length for responses of 65536 bytes and more."
  },
  {
   "property": "C54",
   "status": "proved",
   "theorems": [
    "Verif.Props.Listeners.doh_client",
    "Verif.Props.Listeners.doh_client_prefix",
    "Verif.Props.Listeners.doh_client_peer"
   ],
   "note": "Header values and networks are arbitrary; net.ParseIP is a parameter."
  },
  {
   "property": "C55",
   "status": "proved",
   "theorems": [
    "Verif.Props.Listeners.doh_listener",
    "Verif.Props.Listeners.doh_early_data",
    "Verif.Props.Listeners.doq_early_data",
    "Verif.Props.Clients.doh_client_early",
    "Verif.Props.DoqConn.doq_client_early",
    "Verif.Props.DoqConn.doq_client_exclusive",
    "Verif.Props.DoqConn.doq_client_waits"
   ],
   "note": "The QUIC and TLS libraries are parameters; the DoQ client connection is a step machine over all interleavings."
  },
  {
   "property": "C56",
   "status": "proved",
   "theorems": [
    "Verif.Props.Pipeline.pipeline_answer",
    "Verif.Props.Clients.plain_query",
    "Verif.Props.Clients.encrypted_query",
    "Verif.Props.Clients.dot_query",
    "Verif.Props.Clients.doq_client",
    "Verif.Props.Clients.doh_client",
    "Verif.Props.Clients.odoh_client",
    "Verif.Props.Clients.odoh_key_fresh",
    "Verif.Props.Clients.doh_id_unchecked",
    "Verif.Props.Clients.odoh_no_key_crashes"
   ],
   "note": "Findings: the DoH client does not compare the response ID, and the ODoH client panics on an empty key list."
  },
  {
   "property": "C57",
   "status": "proved",
   "theorems": [
    "Verif.Props.Validate.hostname_accepted",
    "Verif.Props.Validate.hostname_proper",
    "Verif.Props.Validate.hostname_chars",
    "Verif.Props.Validate.hostname_empty_label",
    "Verif.Props.Validate.hostname_long_label",
    "Verif.Props.Validate.endpoint_accepted",
    "Verif.Props.Validate.split_host_port"
   ],
   "note": "net.ParseIP is a parameter. Findings: empty labels and labels of more than 63 characters are accepted."
  },
  {
   "property": "C58",
   "status": "proved",
   "theorems": [
    "Verif.Props.Xsocket.allowed_iff",
    "Verif.Props.Xsocket.server_serves",
    "Verif.Props.Xsocket.server_restricted",
    "Verif.Props.Xsocket.server_keeps_none",
    "Verif.Props.Xsocket.client_request",
    "Verif.Props.Xsocket.client_keeps_one",
    "Verif.Props.Xsocket.client_checks",
    "Verif.Props.Xsocket.client_leaks",
    "Verif.Props.Xsocket.end_to_end",
    "Verif.Props.Xsocket.listen_stream",
    "Verif.Props.Xsocket.listen_packet",
    "Verif.Props.Xsocket.dial",
    "Verif.Props.Xsocket.sockaddr_for",
    "Verif.Props.Xsocket.own_requests_harmless"
   ],
   "note": "The kernel is a parameter. Finding: descriptors that come with a malformed response are not closed."
  },
  {
   "property": "C59",
   "status": "proved",
   "theorems": [
    "Verif.Props.NetnsWatch.netns_state_arrives",
    "Verif.Props.NetnsWatch.netns_settled",
    "Verif.Props.NetnsWatch.netns_settled_absent",
    "Verif.Props.NetnsWatch.netns_one_listener",
    "Verif.Props.NetnsWatch.netns_give_up_late",
    "Verif.Props.NetnsWatch.netns_lost_only",
    "Verif.Props.NetnsWatch.netns_settles",
    "Verif.Props.NetnsWatch.netns_stuck_settled",
    "Verif.Props.NetnsWatch.netns_can_settle",
    "Verif.Props.NetnsWatch.netns_subscribe_race",
    "Verif.Props.NetnsWatch.netns_dropped_event",
    "Verif.Props.NetnsWatch.netns_two_listeners"
   ],
   "note": "Step machine of file system, watcher, supervisor and listener instances for one namespace name. Findings: an event between stat and registration is lost; an event that finds the channel full is never retried; a listener given up keeps running beside its successor."
  },
  {
   "property": "C60",
   "status": "proved",
   "theorems": [
    "Verif.Props.Config.config_sections",
    "Verif.Props.Config.config_start",
    "Verif.Props.Config.config_accepted",
    "Verif.Props.Config.config_order",
    "Verif.Props.Config.config_rejected",
    "Verif.Props.Config.config_no_repeats",
    "Verif.Props.Config.config_bootstrap_only_listeners"
   ],
   "note": "The graph library is modelled by its documented behaviour; constructors are parameters. Findings: a group cannot name an element twice; the bootstrap resolver cannot be named by other elements."
  },
  {
   "property": "C61",
   "status": "proved",
   "theorems": [
    "Verif.Props.Prefetch.prefetch_only_frequent",
    "Verif.Props.Prefetch.prefetch_defaults",
    "Verif.Props.Prefetch.prefetch_only_on_expiry",
    "Verif.Props.Prefetch.prefetch_stops",
    "Verif.Props.Prefetch.prefetch_window_slides"
   ],
   "note": "prefetch_window_slides is a finding: the window slides with every query."
  },
  {
   "property": "C62",
   "status": "proved",
   "theorems": [
    "Verif.Props.Odoh.regex_matches",
    "Verif.Props.Odoh.host_checked",
    "Verif.Props.Odoh.odoh_proxy",
    "Verif.Props.Odoh.odoh_proxy_response",
    "Verif.Props.Odoh.odoh_proxy_host",
    "Verif.Props.Odoh.odoh_target",
    "Verif.Props.Odoh.odoh_only",
    "Verif.Props.Odoh.odoh_modes",
    "Verif.Props.Odoh.odoh_end_to_end",
    "Verif.Props.Odoh.odoh_allowed_net_ignored",
    "Verif.Props.Odoh.odoh_proxy_cuts",
    "Verif.Props.Odoh.odoh_proxy_broken"
   ],
   "note": "HTTP, encryption and the pipeline are parameters; the host pattern is a regular expression with a verified matcher. Findings: allowed-net is ignored, bodies are cut to 4096 bytes, a broken-off response is handed on with status 200."
  },
  {
   "property": "C63",
   "status": "proved",
   "theorems": [
    "Verif.Props.Listeners.drop_never_crashes",
    "Verif.Props.Listeners.doq_drop_crashes"
   ],
   "note": "Proved for the plain, DoT, DTLS and DoH listeners. Finding: the DoQ listener panics when the pipeline drops a query."
  },
  {
   "property": "C64",
   "status": "proved",
   "theorems": [
    "Verif.Props.Static.syslog_transparent",
    "Verif.Props.Static.syslog_lines",
    "Verif.Props.Static.querylog_transparent"
   ],
   "note": ""
  },
  {
   "property": "C65",
   "status": "proved",
   "theorems": [
    "Verif.Props.Listeners.dtls_reads",
    "Verif.Props.Listeners.dtls_read_progress"
   ],
   "note": ""
  },
  {
   "property": "C66",
   "status": "proved",
   "theorems": [
    "Verif.Props.Validate.default_port_added",
    "Verif.Props.Validate.default_port_kept",
    "Verif.Props.Validate.default_port_url",
    "Verif.Props.Validate.default_port_accepted",
    "Verif.Props.Validate.default_port_ipv6",
    "Verif.Props.Validate.join_split"
   ],
   "note": "net/url is a parameter. Finding: an IPv6 address without port gets no default port."
  },
  {
   "property": "C67",
   "status": "proved",
   "theorems": [
    "Verif.Props.Setns.netns_restored",
    "Verif.Props.Setns.netns_inside",
    "Verif.Props.Setns.netns_race",
    "Verif.Props.Setns.netns_back_fails"
   ],
   "note": "Step machine over any number of threads. Finding: /proc/self/ns/net is that of the main thread, so a call that starts while the main thread is switched leaves its thread in the wrong namespace."
  },
  {
   "property": "C68",
   "status": "proved",
   "theorems": [
    "Verif.Props.Cache.cache_refresh_start",
    "Verif.Props.Cache.cache_refresh_none",
    "Verif.Props.Cache.storedLast_unique",
    "Verif.Props.Cache.cache_refresh_end",
    "Verif.Props.Cache.cache_refresh_not_shorter",
    "Verif.Props.Cache.cache_resolve_total",
    "Verif.Props.Cache.refresh_eligible_boundary",
    "Verif.Props.Cache.refresh_servfail_replaces"
   ],
   "note": "In-memory backend. Findings: the minimum TTL for refreshing is exclusive although documented as inclusive; SERVFAIL with a record replaces a good answer."
  },
  {
   "property": "C69",
   "status": "proved",
   "theorems": [
    "Verif.Props.Location.ids_loaded",
    "Verif.Props.Location.says_not_blank",
    "Verif.Props.Location.geo_match",
    "Verif.Props.Location.asn_match",
    "Verif.Props.Location.geo_zero_matches"
   ],
   "note": "Database look-ups are parameters. Finding: rule 0 matches every address whose continent, country or city is missing from the database."
  },
  {
   "property": "C70",
   "status": "proved",
   "theorems": [
    "Verif.Props.Location.never_used_closed",
    "Verif.Props.Location.databases_open",
    "Verif.Props.Location.no_leak_without_failure",
    "Verif.Props.Location.failed_reload_leaks"
   ],
   "note": "Step machine with any number of readers and databases. Finding: every failed reload leaves one more database open for good."
  },
  {
   "property": "C71",
   "status": "proved",
   "theorems": [
    "Verif.Props.Dialing.dot_dials",
    "Verif.Props.Dialing.dot_dials_proxy",
    "Verif.Props.Dialing.dot_identity",
    "Verif.Props.Dialing.dot_name_from_lookup",
    "Verif.Props.Dialing.doh_dials",
    "Verif.Props.Dialing.doq_dials",
    "Verif.Props.Dialing.doh_quic_dials",
    "Verif.Props.Dialing.dtls_dials"
   ],
   "note": "The name put into the TLS configuration; checking it is the TLS library. Findings: DNS over TLS given by name only checks the certificate for the looked-up address (dot_name_from_lookup); DTLS without bootstrap address gives no name; server-name is ignored by QUIC, DTLS and with a bootstrap address."
  },
  {
   "property": "C72",
   "status": "proved",
   "theorems": [
    "Verif.Props.Dialing.plain_dials",
    "Verif.Props.Dialing.plain_dials_proxy",
    "Verif.Props.Dialing.configured_source",
    "Verif.Props.Dialing.dot_dials",
    "Verif.Props.Dialing.doh_dials",
    "Verif.Props.Dialing.doq_dials",
    "Verif.Props.Dialing.doh_quic_dials",
    "Verif.Props.Dialing.quic_source_expected",
    "Verif.Props.Dialing.dtls_dials",
    "Verif.Props.Dialing.socks_dials",
    "Verif.Props.Dialing.socks_failed_lookup_kept",
    "Verif.Props.Dialing.bad_local_ignored"
   ],
   "note": "Network namespaces, time-outs and HTTP proxies from the environment are not modelled. Findings: a local address that cannot be parsed is silently ignored; redirects of DNS over HTTPS through SOCKS5 go to the first destination; a failed first local look-up makes the name go to the SOCKS5 proxy for good."
  },
  {
   "property": "C73",
   "status": "proved",
   "theorems": [
    "Verif.Props.TlsConfig.server_config",
    "Verif.Props.TlsConfig.mutual_tls",
    "Verif.Props.TlsConfig.client_config",
    "Verif.Props.TlsConfig.half_pair_ignored"
   ],
   "note": "What the library does with the configuration is outside the model. Finding: a certificate without key (or key without certificate) is silently left out."
  },
  {
   "property": "C74",
   "status": "proved",
   "theorems": [
    "Verif.Props.Lua.lua_exclusive",
    "Verif.Props.Lua.lua_progress",
    "Verif.Props.Lua.lua_own_reply",
    "Verif.Props.Lua.lua_reply",
    "Verif.Props.Lua.lua_stack",
    "Verif.Props.Lua.lua_wears_out"
   ],
   "note": "The script is any function of its state, query and client; the Lua stack is modelled, the type bindings are not. Finding: an unsupported second return value leaks stack room until every query fails."
  },
  {
   "property": "C75",
   "status": "proved",
   "theorems": [
    "Verif.Props.Base64.get_roundtrip",
    "Verif.Props.Base64.get_injective",
    "Verif.Props.Base64.get_url_safe",
    "Verif.Props.Base64.get_accepts"
   ],
   "note": "encoding/base64 RawURLEncoding as used by client and listener, over all byte strings."
  },
  {
   "property": "C76",
   "status": "proved",
   "theorems": [
    "Verif.Props.Composition.no_crash",
    "Verif.Props.Composition.reply_belongs",
    "Verif.Props.Composition.clients_good",
    "Verif.Props.Composition.listener_belongs",
    "Verif.Props.Composition.replace_asks",
    "Verif.Props.Composition.dnssec_asks",
    "Verif.Props.Composition.dns64_asks",
    "Verif.Props.Composition.router_asks",
    "Verif.Props.Composition.insane_crash"
   ],
   "note": "Induction over derivations of replies of configuration trees. Lua scripts and the oblivious client are left out. Finding: insane_crash."
  },
  {
   "property": "C77",
   "status": "proved",
   "theorems": [
    "Verif.Props.Group.failure_iff",
    "Verif.Props.Group.blocked_alias_fails"
   ],
   "note": "Exact characterisation. Finding: blocked_alias_fails."
  },
  {
   "property": "C78",
   "status": "proved",
   "theorems": [
    "Verif.Props.NetResolver.round_trip",
    "Verif.Props.NetResolver.lookup_sound",
    "Verif.Props.NetResolver.lookup_uses",
    "Verif.Props.NetResolver.lookup_ends",
    "Verif.Props.NetResolver.bootstrap_ends",
    "Verif.Props.NetResolver.lookup_hangs",
    "Verif.Props.NetResolver.lookup_large"
   ],
   "note": "With the round trip of the Go library modelled. Findings: lookup_hangs, lookup_large."
  },
  {
   "property": "C79",
   "status": "proved",
   "theorems": [
    "Verif.Props.Assemble.group_means",
    "Verif.Props.Assemble.router_means",
    "Verif.Props.Assemble.resolver_means",
    "Verif.Props.Assemble.listener_acceptable",
    "Verif.Props.Assemble.program_start",
    "Verif.Props.Assemble.program_accepts",
    "Verif.Props.Assemble.denotes_unique",
    "Verif.Props.Assemble.client_number",
    "Verif.Props.Assemble.client_number_bootstrap",
    "Verif.Props.Assemble.careful_sane",
    "Verif.Props.Assemble.program_belongs",
    "Verif.Props.Assemble.program_no_crash",
    "Verif.Props.Assemble.allowlist_format_ignored",
    "Verif.Props.Assemble.allowlist_format_confused",
    "Verif.Props.Assemble.no_operation",
    "Verif.Props.Assemble.options_ignored",
    "Verif.Props.Assemble.cache_size_ignored",
    "Verif.Props.Assemble.empty_round_robin",
    "Verif.Props.Assemble.lazy_transport",
    "Verif.Props.AsksConfig.list_says"
   ],
   "note": "Scripts, Redis caches and oblivious clients are taken to give replies that belong. Findings: allowlist_format_ignored, allowlist_format_confused, no_operation, options_ignored, cache_size_ignored, empty_round_robin, lazy_transport."
  },
  {
   "property": "C80",
   "status": "proved",
   "theorems": [
    "Verif.Props.LuaBind.assignable",
    "Verif.Props.LuaBind.assigns_to_objects",
    "Verif.Props.LuaBind.refused_unchanged",
    "Verif.Props.LuaBind.refused_unchanged_direct",
    "Verif.Props.LuaBind.assigned_read",
    "Verif.Props.LuaBind.others_unchanged",
    "Verif.Props.LuaBind.readable_fields",
    "Verif.Props.LuaBind.does_ordered",
    "Verif.Props.LuaBind.does_is",
    "Verif.Props.LuaBind.runs_safe",
    "Verif.Props.LuaBind.questions_handles",
    "Verif.Props.LuaBind.records_handles",
    "Verif.Props.LuaBind.options_handles",
    "Verif.Props.LuaBind.set_reply",
    "Verif.Props.LuaBind.set_question",
    "Verif.Props.LuaBind.is_edns0",
    "Verif.Props.LuaBind.set_edns0",
    "Verif.Props.LuaBind.new_objects",
    "Verif.Props.LuaBind.message_new",
    "Verif.Props.LuaBind.question_new",
    "Verif.Props.LuaBind.opt_new",
    "Verif.Props.LuaBind.option_new",
    "Verif.Props.LuaBind.option_code",
    "Verif.Props.LuaMethods.methods",
    "Verif.Props.LuaMethods.methods_error",
    "Verif.Props.LuaMethods.methods_resolver",
    "Verif.Props.LuaMethods.error_text",
    "Verif.Props.LuaMethods.error_new",
    "Verif.Props.LuaMethods.error_new_refused",
    "Verif.Props.LuaRecord.field_place",
    "Verif.Props.LuaRecord.rr_new_ok",
    "Verif.Props.LuaRecord.rr_new_read",
    "Verif.Props.LuaRecord.rr_new_order",
    "Verif.Props.LuaRecord.resolve_call",
    "Verif.Props.LuaRecord.client_read"
   ],
   "note": "The Lua interpreter itself is not modelled: scripts are arbitrary sequences of operations on the objects. Conversions of floats outside the range of the integer type are arbitrary."
  },
  {
   "property": "C81",
   "status": "proved",
   "theorems": [
    "Verif.Props.LuaRecord.sandbox",
    "Verif.Props.LuaRecord.loaders_removed",
    "Verif.Props.LuaRecord.script_globals",
    "Verif.Props.LuaRecord.resolve_not_api"
   ],
   "note": "Libraries are arbitrary sets of names; what their functions do is not modelled."
  },
  {
   "property": "C82",
   "status": "proved",
   "theorems": [
    "Verif.Props.Buffers.bytes_intact",
    "Verif.Props.Buffers.redis_gets",
    "Verif.Props.Buffers.buffers_not_shared",
    "Verif.Props.Buffers.writes_bounded",
    "Verif.Props.Buffers.calls_go_on",
    "Verif.Props.Buffers.redis_sends_encoding",
    "Verif.Props.Buffers.async_writes_reordered"
   ],
   "note": "The pool and the packer are arbitrary within their contracts. calls_go_on needs messages that pack to at least one byte (a header always does)."
  },
  {
   "property": "C83",
   "status": "proved",
   "theorems": [
    "Verif.Props.RedisFlush.pattern_matches_prefix",
    "Verif.Props.RedisFlush.flush_removes_entries",
    "Verif.Props.RedisFlush.flush_empties",
    "Verif.Props.RedisFlush.flush_spares_others",
    "Verif.Props.RedisFlush.flush_empty_prefix_matches_all",
    "Verif.Props.RedisFlush.flush_question_matches_others",
    "Verif.Props.RedisFlush.flush_class_misses_own"
   ],
   "note": "For prefixes without the bytes special in Redis patterns; the contracts of SCAN and of glob patterns are hypotheses, shown satisfiable."
  },
  {
   "property": "C84",
   "status": "proved",
   "theorems": [
    "Verif.Props.ListenSock.socket_as_configured",
    "Verif.Props.ListenSock.version_heeded_iff",
    "Verif.Props.ListenSock.dtls_socket",
    "Verif.Props.ListenSock.dtls_name_means_everywhere",
    "Verif.Props.ListenSock.unsound_opens_nothing"
   ],
   "note": "What the kernel makes of the socket is not modelled."
  },
  {
   "property": "C85",
   "status": "proved",
   "theorems": [
    "Verif.Props.Asks.keeps_name",
    "Verif.Props.Asks.guarded_never_asked",
    "Verif.Props.Asks.client_never_asks",
    "Verif.Props.Asks.replies_only_asked",
    "Verif.Props.Asks.guarded_replies",
    "Verif.Props.Asks.client_replies",
    "Verif.Props.Asks.prefetch_passes_client_lists",
    "Verif.Props.Asks.dnssec_passes_client_lists",
    "Verif.Props.Asks.replace_passes_lists",
    "Verif.Props.AsksConfig.old_blocks",
    "Verif.Props.AsksConfig.v2_blocks",
    "Verif.Props.AsksConfig.client_blocks",
    "Verif.Props.AsksConfig.plain_keeps",
    "Verif.Props.AsksConfig.before_guarded",
    "Verif.Props.AsksConfig.before_guarded_client",
    "Verif.Props.AsksConfig.names_never_asked",
    "Verif.Props.AsksConfig.clients_never_ask"
   ],
   "note": "Scripts and Redis caches count as servers. replies_only_asked says that the relation of what is asked misses nothing that replies depend on."
  },
  {
   "property": "C86",
   "status": "proved",
   "theorems": [
    "Verif.Props.LifeCycle.closed_when_stopped",
    "Verif.Props.LifeCycle.closed_when_returned",
    "Verif.Props.LifeCycle.stop_ends",
    "Verif.Props.LifeCycle.early_stop",
    "Verif.Props.LifeCycle.xs_early_stop",
    "Verif.Props.LifeCycle.dns_stays_down",
    "Verif.Props.LifeCycle.h3_stays_down",
    "Verif.Props.LifeCycle.doq_never_returns",
    "Verif.Props.LifeCycle.stays_up",
    "Verif.Props.LifeCycle.http_comes_back",
    "Verif.Props.LifeCycle.can_start"
   ],
   "note": "Start and Stop as a step machine, six kinds of listeners; contracts of http.Server, http3.Server, quic-go and miekg dns.Server are stated in the model. What Start and Stop return, and connections, are not modelled."
  },
  {
   "property": "C87",
   "status": "proved",
   "theorems": [
    "Verif.Props.NetnsEvents.events_understood",
    "Verif.Props.NetnsEvents.others_do_not_matter",
    "Verif.Props.NetnsEvents.hears_changes",
    "Verif.Props.NetnsEvents.wait_ends",
    "Verif.Props.NetnsEvents.wait_sleeps"
   ],
   "note": "Little-endian machines; events as inotify(7) lays them out. The theorem on subscribers is for runs in which nobody cancels (a cancellation renumbers the others)."
  },
  {
   "property": "C88",
   "status": "proved",
   "theorems": [
    "Verif.Props.FdListen.one_server",
    "Verif.Props.FdListen.permissions",
    "Verif.Props.FdListen.others_socket_kept",
    "Verif.Props.FdListen.in_use",
    "Verif.Props.FdListen.abstract_in_use",
    "Verif.Props.FdListen.foreign_kept",
    "Verif.Props.FdListen.stale_taken_over",
    "Verif.Props.FdListen.free_taken",
    "Verif.Props.FdListen.stop_cleans",
    "Verif.Props.FdListen.abstract_one_server",
    "Verif.Props.FdListen.mode_read",
    "Verif.Props.FdListen.mode_zero_ignored"
   ],
   "note": "Step machine; what the kernel does with paths of sockets is stated in the model. The races are examples next to the theorems."
  },
  {
   "property": "C89",
   "status": "proved",
   "theorems": [
    "Verif.Props.ConnectFd.success_iff",
    "Verif.Props.ConnectFd.timeout_iff",
    "Verif.Props.ConnectFd.refused_reported",
    "Verif.Props.ConnectFd.waits_bounded",
    "Verif.Props.ConnectFd.interruptions_restart"
   ],
   "note": "System calls are parameters."
  },
  {
   "property": "C90",
   "status": "proved",
   "theorems": [
    "Verif.Props.DnssecJoin.client_gets",
    "Verif.Props.DnssecJoin.client_gets_denial",
    "Verif.Props.DnssecJoin.ad_means_proven",
    "Verif.Props.DnssecJoin.proven_is_published",
    "Verif.Props.DnssecJoin.tree_gets"
   ],
   "note": "Joins C47 and C52. Cryptography is a parameter. The example that meets the hypotheses is in DnssecRuns. Log-only mode is left to C52."
  },
  {
   "property": "C91",
   "status": "proved",
   "theorems": [
    "Verif.Props.CacheLives.never_panics",
    "Verif.Props.CacheLives.served_after_restarts",
    "Verif.Props.CacheLives.nothing_lost",
    "Verif.Props.CacheLives.within_capacity",
    "Verif.Props.CacheLives.flushed_comes_back",
    "Verif.Props.CacheLives.replaced_comes_back"
   ],
   "note": "Saves that fail leave the file as it was (C45) and are no events. JSON is taken to return what was written. flushed_comes_back and replaced_comes_back are findings: a flush or a newer response does not touch the file."
  },
  {
   "property": "C92",
   "status": "proved",
   "theorems": [
    "Verif.Props.Counters.registers",
    "Verif.Props.Counters.own_variables",
    "Verif.Props.Counters.listener_counts",
    "Verif.Props.Counters.doh_counts",
    "Verif.Props.Counters.doh_response_code",
    "Verif.Props.Counters.blocklist_counts",
    "Verif.Props.Counters.client_blocklist_counts",
    "Verif.Props.Counters.rate_counts",
    "Verif.Props.Counters.dns64_counts",
    "Verif.Props.Counters.cache_counts",
    "Verif.Props.Counters.dnssec_counts",
    "Verif.Props.Counters.rotate_counts",
    "Verif.Props.Counters.back_counts",
    "Verif.Props.Counters.back_failovers",
    "Verif.Props.Counters.random_counts",
    "Verif.Props.Counters.random_gauge",
    "Verif.Props.MoreCounters.doq_counts",
    "Verif.Props.MoreCounters.doq_response_code",
    "Verif.Props.MoreCounters.doh_client_counts",
    "Verif.Props.MoreCounters.doq_client_counts",
    "Verif.Props.MoreCounters.odoh_counts",
    "Verif.Props.MoreCounters.odoh_uncounted",
    "Verif.Props.MoreCounters.router_counts",
    "Verif.Props.MoreCounters.router_gauge",
    "Verif.Props.MoreCounters.roundrobin_counts",
    "Verif.Props.MoreCounters.balance_counts",
    "Verif.Props.PipeCounters.pipeline_counts",
    "Verif.Props.PipeCounters.maxqueue",
    "Verif.Props.Entries.entries_fresh",
    "Verif.Props.Entries.entries_real"
   ],
   "note": "Members of groups are counted by index; in the code members with the same id share a counter. Queries on which the handler crashes (C53) are excluded. ODoH listeners have no counters of their own. `entries` is proved for caches in memory; for a Redis cache it is the number of keys of the whole database, which is not modelled. Findings: an ODoH client never counts queries, and some of its failures are not counted; a DoQ listener counts a response also if it could not be sent, and as drops the connections it refuses; the gauge of a router counts calls of Add; clients that share a connection count an answer to another question as a response although the caller gets an error; a random group counts every attempt as a fail-over; its gauge is too high between a failure and the next query; the gauge of a fail-rotate group never changes."
  },
  {
   "property": "C93",
   "status": "proved",
   "theorems": [
    "Verif.Props.Shared.query_kept",
    "Verif.Props.SharedReplies.reply_kept",
    "Verif.Props.SharedReplies.replies_apart",
    "Verif.Props.SharedAsks.asked_as_values",
    "Verif.Props.SharedAsks.late_member_asks_original_name"
   ],
   "note": "A message is two objects: its question section and the rest. What depends on time, chance or stored answers is any choice. Scripts are left out. late_member_asks_original_name is a finding: the condition of asked_as_values is needed."
  },
  {
   "property": "C94",
   "status": "proved",
   "theorems": [
    "Verif.Props.SharedEnds.no_endless_run",
    "Verif.Props.SharedEnds.halts_only_done",
    "Verif.Props.SharedEnds.every_query_ends",
    "Verif.Props.SharedEnds.empty_fastest_never_replies"
   ],
   "note": "Asking a server is one step: it replies or fails in the end (C62 and others are about single transports). Mutexes inside elements are held for one step only. empty_fastest_never_replies is a finding: the condition of halts_only_done is needed."
  },
  {
   "property": "C95",
   "status": "proved",
   "theorems": [
    "Verif.Props.DnssecServes.no_panic",
    "Verif.Props.DnssecServes.signed_answer_accepted",
    "Verif.Props.DnssecServes.unsigned_answer_insecure",
    "Verif.Props.DnssecServes.unsigned_denial_insecure",
    "Verif.Props.DnssecServes.no_endless_validation",
    "Verif.Props.DnssecServes.can_finish",
    "Verif.Props.DnssecServes.kept_keys_used",
    "Verif.Props.DnssecServes.kept_anchors_used",
    "Verif.Props.DnssecServes.single_key_rejected",
    "Verif.Props.DnssecServes.distant_parent_rejected",
    "Verif.Props.DnssecServes.below_empty_nonterminal_bogus"
   ],
   "note": "Cryptography is a parameter; what a proper signature and a proper denial of DS records are is said in Spec/DnssecServes. Denials other than of DS records are in C96. The last three theorems are findings: why the conditions on the zones are needed."
  },
  {
   "property": "C96",
   "status": "proved",
   "theorems": [
    "Verif.Props.DnssecDenies.nsec_accepted",
    "Verif.Props.DnssecDenies.nsec3_accepted",
    "Verif.Props.DnssecDenies.denial_accepted",
    "Verif.Props.DnssecDenies.nsec_empty_nonterminal_refused",
    "Verif.Props.DnssecDenies.nsec3_root_refused"
   ],
   "note": "What a server has to send is said in Spec/DnssecDenies, after RFC 4035 and RFC 5155. The hash function is a parameter. A wildcard right below the root is covered for NSEC when the record is that of the root itself. The last two theorems are findings: proper denials that are refused."
  },
  {
   "property": "C97",
   "status": "proved",
   "theorems": [
    "Verif.Props.GroupTimes.Back.failback_not_early",
    "Verif.Props.GroupTimes.Back.failback_waits",
    "Verif.Props.GroupTimes.Back.failback_not_late",
    "Verif.Props.GroupTimes.Back.failback_on_time",
    "Verif.Props.GroupTimes.Back.failback_refines",
    "Verif.Props.GroupTimes.Random.random_rests",
    "Verif.Props.GroupTimes.Random.random_back",
    "Verif.Props.GroupTimes.Random.random_keeps",
    "Verif.Props.GroupTimes.reset_default"
   ],
   "note": "Not late: time passes only when nothing that is due is pending. The exception at the moment the timer is due is a finding, shown by an example."
  },
  {
   "property": "C98",
   "status": "proved",
   "theorems": [
    "Verif.Props.Settings.rate_limit_as_configured",
    "Verif.Props.Settings.penalty_as_configured",
    "Verif.Props.Settings.cache_without_backend",
    "Verif.Props.Settings.cache_in_memory",
    "Verif.Props.Settings.cache_in_redis",
    "Verif.Props.Settings.cache_backends",
    "Verif.Props.Settings.refresh_as_configured",
    "Verif.Props.Settings.port_as_configured",
    "Verif.Props.Settings.prefetch_as_configured",
    "Verif.Props.Settings.prefetch_sizes",
    "Verif.Props.Settings.lua_as_configured",
    "Verif.Props.Settings.penalty_wraps",
    "Verif.Props.Settings.backend_without_type"
   ],
   "note": "From the decoded section to the element; reading TOML is the library. Elements are those of C17, C18, C21, C61 and C74. Findings: penalty_wraps, backend_without_type."
  },
  {
   "property": "C99",
   "status": "proved",
   "theorems": [
    "Verif.Props.Upkeep.list_not_too_often",
    "Verif.Props.Upkeep.list_loaded_once",
    "Verif.Props.Upkeep.list_fresh",
    "Verif.Props.Upkeep.list_failed_reload",
    "Verif.Props.Upkeep.expired_entries_go",
    "Verif.Props.Upkeep.file_fresh",
    "Verif.Props.Upkeep.file_not_too_often",
    "Verif.Props.Upkeep.file_only_at_end",
    "Verif.Props.Upkeep.negative_interval_never_rests"
   ],
   "note": "Timed step machines on top of the cache of C91. Delays of the machine are a parameter of the statements. Saving at the end of the program is in C91. Finding: negative_interval_never_rests."
  },
  {
   "property": "C100",
   "status": "proved",
   "theorems": [
    "Verif.Props.Effort.asked_bounded"
   ],
   "note": "The programs of C93, in any interleaving. A query to a server is one call of a client; what a client sends anew on a broken connection is in C24 and C55."
  },
  {
   "property": "C101",
   "status": "proved",
   "theorems": [
    "Verif.Props.Probes.probes_where",
    "Verif.Props.Probes.probes_few",
    "Verif.Props.Probes.probe_never_waits",
    "Verif.Props.Probes.probes_bounded",
    "Verif.Props.Probes.probes_end",
    "Verif.Props.Probes.probe_holds",
    "Verif.Props.Probes.probes_in_time",
    "Verif.Props.Probes.fastest_one",
    "Verif.Props.Probes.waitall_reply"
   ],
   "note": "The two seconds assume that the caller is scheduled at once. That a connection attempt ends is the library (it is given the context)."
  },
  {
   "property": "C102",
   "status": "proved",
   "theorems": [
    "Verif.Props.Timed.reply_in_time"
   ],
   "note": "The programs of C93 with a clock that moves only when all goroutines rest. How long a client takes is a number for each server here; what it is for plain, TLS and DTLS servers is in C103, for QUIC in C104 (there it also depends on how many queries wait for the connection); DoH is given query-timeout as the limit of the HTTP request. Not for validating elements (any number of look-ups) and for fastest-tcp (two seconds more, C101)."
  },
  {
   "property": "C103",
   "status": "proved",
   "theorems": [
    "Verif.Props.PipelineTimed.call_in_time",
    "Verif.Props.PipelineTimed.not_given_up_early",
    "Verif.Props.PipelineTimed.completed_in_time",
    "Verif.Props.PipelineTimed.silent_connection_dropped",
    "Verif.Props.PipelineTimed.reconnects",
    "Verif.Props.PipelineTimed.blocked_write_blocks_all",
    "Verif.Props.PipelineTimed.limit"
   ],
   "note": "The pipeline of C24 with a clock. What the program does itself takes no time, and timers are exact. Dialling and writing may take any time, except that the bound on giving up a silent connection has the duration of writes in it."
  },
  {
   "property": "C104",
   "status": "proved",
   "theorems": [
    "Verif.Props.DoqTimed.doq_call_in_time",
    "Verif.Props.DoqTimed.doq_timeouts_add_up"
   ],
   "note": "The connection of C55 with a clock. The time limit of a handshake is a parameter (quic-go derives it from HandshakeIdleTimeout, which is set to query-timeout). What the program does itself takes no time; resolving the name of the server is left out."
  },
  {
   "property": "C105",
   "status": "proved",
   "theorems": [
    "Verif.Props.BalanceFloat.constants",
    "Verif.Props.BalanceFloat.exploration_share",
    "Verif.Props.BalanceFloat.average_bounds",
    "Verif.Props.BalanceFloat.average_range",
    "Verif.Props.BalanceFloat.weight_range",
    "Verif.Props.BalanceFloat.failure_never_rewards",
    "Verif.Props.BalanceFloat.penalty_counts",
    "Verif.Props.BalanceFloat.recovers",
    "Verif.Props.BalanceFloat.explore_valid",
    "Verif.Props.BalanceFloat.explore_uniform",
    "Verif.Props.BalanceFloat.pick_valid",
    "Verif.Props.BalanceFloat.pick_weighted",
    "Verif.Props.BalanceFloat.pick_after",
    "Verif.Props.Float64.nearest_exists"
   ],
   "note": "float64 is modelled by rationals with rounding to nearest (any rule for the middle), without infinities and NaN; that these do not arise is part of what is proved (average_range, weight_range, pick_weighted)."
  },
  {
   "property": "C106",
   "status": "proved",
   "theorems": [
    "Verif.Props.Races.failback_no_race",
    "Verif.Props.Races.failrotate_no_race",
    "Verif.Props.Races.roundrobin_no_race",
    "Verif.Props.Races.random_no_race",
    "Verif.Props.Races.loadbalance_no_race",
    "Verif.Props.Races.ratelimiter_no_race",
    "Verif.Props.Races.blocklist_no_race",
    "Verif.Props.Races.lists_no_race",
    "Verif.Props.Races.memory_no_race",
    "Verif.Props.Races.shuffle_no_race",
    "Verif.Props.Races.dedup_no_race",
    "Verif.Props.Races.pipeline_no_race",
    "Verif.Props.Races.quic_no_race",
    "Verif.Props.Races.odoh_no_race",
    "Verif.Props.Races.keystore_no_race",
    "Verif.Props.Races.listener_no_race",
    "Verif.Props.Races.xsocket_no_race",
    "Verif.Props.Races.watcher_no_race",
    "Verif.Props.Races.socks_no_race"
   ],
   "note": "Spec/Races has the order of the Go memory model and what a race is. Each element is transcribed as the sequence of its lock operations, accesses to shared variables, channel operations and go statements, with branches and loops free to go either way. A check of the code against a plan, which says for every variable how it is protected, is proved sound once for all executions. Memory the elements hand each other (messages) is in C93; libraries are taken to be free of races."
  },
  {
   "property": "C107",
   "status": "proved",
   "theorems": [
    "Verif.Props.Races.failback_locks",
    "Verif.Props.Races.failrotate_locks",
    "Verif.Props.Races.roundrobin_locks",
    "Verif.Props.Races.random_locks",
    "Verif.Props.Races.loadbalance_locks",
    "Verif.Props.Races.ratelimiter_locks",
    "Verif.Props.Races.blocklist_locks",
    "Verif.Props.Races.lists_locks",
    "Verif.Props.Races.memory_locks",
    "Verif.Props.Races.shuffle_locks",
    "Verif.Props.Races.dedup_locks",
    "Verif.Props.Races.pipeline_locks",
    "Verif.Props.Races.quic_locks",
    "Verif.Props.Races.odoh_locks",
    "Verif.Props.Races.keystore_locks",
    "Verif.Props.Races.listener_locks",
    "Verif.Props.Races.xsocket_locks",
    "Verif.Props.Races.watcher_locks",
    "Verif.Props.Races.socks_locks"
   ],
   "note": "LocksSound has three parts: no deadlock by locks, releases only by holders, no lock held at the end. Waiting for channels and the network is in C93, C102 and others."
  },
  {
   "property": "C108",
   "status": "proved",
   "theorems": [
    "Verif.Props.Logging.log_lines",
    "Verif.Props.Logging.log_writes_nothing",
    "Verif.Props.Logging.log_levels"
   ],
   "note": "Arguments that do not alternate keys and values are not covered (there are none in the program). The name is that at the time of the line: elements that change a query change what is logged after."
  },
  {
   "property": "C109",
   "status": "proved",
   "theorems": [
    "Verif.Props.OdohTimed.odoh_call_in_time",
    "Verif.Props.OdohTimed.odoh_latest_key",
    "Verif.Props.OdohTimed.odoh_key_kept",
    "Verif.Props.OdohTimed.odoh_preset_key",
    "Verif.Props.OdohTimed.odoh_no_limit",
    "Verif.Props.OdohTimed.odoh_failures_add_up",
    "Verif.Props.OdohTimed.odoh_query_conn",
    "Verif.Props.OdohTimed.odoh_key_conn",
    "Verif.Props.OdohTimed.odoh_quic_key_name",
    "Verif.Props.OdohTimed.odoh_no_socks"
   ],
   "note": "The time limit of a fetch is a parameter: the code sets none, so it is that of the system for connections, if any. What the program does itself takes no time. Connections are those of C71 and C72."
  },
  {
   "property": "C110",
   "status": "proved",
   "theorems": [
    "Verif.Props.Privacy.only_good_options",
    "Verif.Props.Privacy.no_client_subnet",
    "Verif.Props.Privacy.only_configured_subnet",
    "Verif.Props.Privacy.only_coarse_subnets",
    "Verif.Props.Privacy.no_option",
    "Verif.Props.Privacy.options_make_no_difference",
    "Verif.Props.Privacy.replies_only_got",
    "Verif.Props.Privacy.gets_asked",
    "Verif.Props.Privacy.first_of_two_kept"
   ],
   "note": "Configurations are those of C76 (without Lua, whose scripts can send anything). An element that may ask is taken to ask. Upstream clients add padding and change the UDP size and the ID: see C41 and others."
  },
  {
   "property": "C111",
   "status": "proved",
   "theorems": [
    "Verif.Props.Filters.replies_clean",
    "Verif.Props.Filters.no_listed_address",
    "Verif.Props.Filters.no_listed_name",
    "Verif.Props.Filters.address_list_blocks",
    "Verif.Props.Filters.allowed_addresses_block",
    "Verif.Props.Filters.name_list_blocks",
    "Verif.Props.Filters.dns64_behind_list",
    "Verif.Props.Filters.dedup_before_client_list"
   ],
   "note": "Configurations are those of C76 (without Lua). What caches have stored and de-duplication hands out is taken to have been a reply of the element behind, as cache.go stores nothing else (C01) and leaders of de-duplication call nothing else (C22). Packing and unpacking of cached messages (miekg/dns) is taken to keep codes and record data. Filtered says which lists are on the ways; its clause for a list names the blocklist properties of C35 and C36."
  },
  {
   "property": "C112",
   "status": "proved",
   "theorems": [
    "Verif.Props.Fresh.records_fresh",
    "Verif.Props.Fresh.records_not_after",
    "Verif.Props.Fresh.records_now",
    "Verif.Props.Fresh.caches_round_down",
    "Verif.Props.Fresh.min_ttl_raises"
   ],
   "note": "Configurations are those of C76 (without Lua). OPT records, whose TTL field is none, are left out. Clocks of all elements are taken to agree (one process, without steps of the clock). What caches have stored is taken to have been a reply of the element behind, stored in the episode that got it (cache.go:204-285), and what de-duplication hands out to be a reply of the element behind that was awaited when the query came in (C22). Packing and unpacking of cached messages (miekg/dns) is taken not to raise TTLs. Redis caches are not covered (their records are those of C09)."
  },
  {
   "property": "C113",
   "status": "proved",
   "theorems": [
    "Verif.Props.Split.names_apart",
    "Verif.Props.Split.names_apart_replies",
    "Verif.Props.Split.clients_apart",
    "Verif.Props.Split.clients_apart_replies",
    "Verif.Props.Split.name_route_catches",
    "Verif.Props.Split.source_route_catches",
    "Verif.Props.Split.listener_route_catches",
    "Verif.Props.Split.capitals_pass_routes",
    "Verif.Props.Split.prefetch_forgets_client"
   ],
   "note": "Configurations are those of C76 (without Lua). What elements may ask is that of C85 (an element that may ask is taken to ask). Regular expressions are a parameter of which only is used that the empty one matches everything."
  },
  {
   "property": "C114",
   "status": "proved",
   "theorems": [
    "Verif.Props.Validated.records_validated",
    "Verif.Props.Validated.nothing_passes",
    "Verif.Props.Validated.answers_proven",
    "Verif.Props.Validated.answers_published",
    "Verif.Props.Validated.other_codes_pass"
   ],
   "note": "Configurations are those of C76 (without Lua). OPT records are left out. That the cache file or the wire format keeps records is a condition on the encoder. Records of the authority and additional sections come from the same sections of a message that passed, but are not themselves proven (C90)."
  },
  {
   "property": "C115",
   "status": "proved",
   "theorems": [
    "Verif.Props.History.run_belongs",
    "Verif.Props.History.run_no_crash",
    "Verif.Props.History.run_clean",
    "Verif.Props.History.run_fresh",
    "Verif.Props.History.run_validated",
    "Verif.Props.History.replies_more",
    "Verif.Props.History.cached_reply"
   ],
   "note": "A history is a list of episodes (an element handles a query) in the order of their ends; what caches hold and de-duplication shares is taken from the episodes before. Configurations are those of C76 (without Lua). With caches in files or Redis the history is that since these were empty. How validations end is a parameter (C90 and Validated.answers_proven say what it means)."
  },
  {
   "property": "C116",
   "status": "proved",
   "theorems": [
    "Verif.Props.Limits.asked_passed",
    "Verif.Props.Limits.limit_holds",
    "Verif.Props.Limits.limit_per_window",
    "Verif.Props.Limits.late_is_run",
    "Verif.Props.Limits.boundary_restarts"
   ],
   "note": "The programs of C93, in any interleaving. The limiter is told apart from others by its description (resolver, limit resolver): the claim is for configurations where it is the only one of its kind. Elements that validate or prefetch may be in front of it, not behind. Prefix lengths must fit the address (C21). boundary_restarts is the finding."
  },
  {
   "property": "C117",
   "status": "proved",
   "theorems": [
    "Verif.Props.Available.replies_served",
    "Verif.Props.History.run_served",
    "Verif.Props.Available.one_member_suffices",
    "Verif.Props.Available.failback_order_matters",
    "Verif.Props.Available.empty_error_loses_nxdomain",
    "Verif.Props.Available.random_one_query_outage"
   ],
   "note": "Configurations are those of C76 (without Lua). Serves says which kinds of replies (error, none, code) an element gives; the elements of a group that are down, and the servers behind them, are not restricted. That there is a reply at all is the subject of C94. The last three theorems are the findings."
  },
  {
   "property": "C118",
   "status": "proved",
   "theorems": [
    "Verif.Props.AvailableConfig.program_available",
    "Verif.Props.AvailableConfig.program_promised",
    "Verif.Props.AvailableConfig.config_promised",
    "Verif.Props.AvailableConfig.group_promised"
   ],
   "note": "Configuration files are those of C79, elements those of C117. Promises says what each section promises given the sections it refers to (Lua scripts and Redis caches: whatever is assumed of them); the library keeps codes of messages when shuffling and encoding. The configuration Assemble.sample meets the hypotheses, and starts."
  },
  {
   "property": "C119",
   "status": "proved",
   "theorems": [
    "Verif.Props.Exist.program_replies",
    "Verif.Props.Exist.always_reply",
    "Verif.Props.Exist.replies_exist",
    "Verif.Props.Exist.config_ready",
    "Verif.Props.Exist.fastest_empty"
   ],
   "note": "Says that the relation RepliesIn of C76, on which C111-C118 rest, is total: those theorems are not true for want of replies. The reply is found in the runs in which nothing else goes on; C94 says that the goroutines of a query end in every run. The hypothesis Loads is about the library: a list that was read is some list."
  },
  {
   "property": "C120",
   "status": "proved",
   "theorems": [
    "Verif.Props.ReplyConfig.program_no_address",
    "Verif.Props.ReplyConfig.program_no_name",
    "Verif.Props.ReplyConfig.config_filtered"
   ],
   "note": "Configuration files are those of C79, filters those of C111. Scripts, Redis caches and hosts-format blocklists on the way are left out; DNS64 may be there for names but not for addresses (Filters.dns64_behind_list). Lists in files or from URLs, and location and ASN lists, are left out as filters: their content is not in the configuration file (C111 has them). That packing and shuffling keep records, and that networks are read with the length of their version, are conditions on the library."
  },
  {
   "property": "C121",
   "status": "proved",
   "theorems": [
    "Verif.Props.ReplyConfig.program_validated",
    "Verif.Props.ReplyConfig.config_screened",
    "Verif.Props.History.run_validated_rest"
   ],
   "note": "Configuration files are those of C79, validators those of C114; what a validation that did not fail proves is in C90 and C114. Scripts, Redis caches and hosts-format blocklists on the way are left out. OPT records are left out."
  },
  {
   "property": "C122",
   "status": "proved",
   "theorems": [
    "Verif.Props.ReplyConfig.program_fresh",
    "Verif.Props.ReplyConfig.config_counted"
   ],
   "note": "Configuration files are those of C79, ages those of C112. Scripts, Redis caches and hosts-format blocklists are left out. Clocks of all elements agree (one process). That shuffling and packing raise no TTL is a condition on the library."
  },
  {
   "property": "C123",
   "status": "proved",
   "theorems": [
    "Verif.Props.PrivacyConfig.ways_of_file",
    "Verif.Props.PrivacyConfig.program_options",
    "Verif.Props.PrivacyConfig.program_no_subnet",
    "Verif.Props.PrivacyConfig.program_coarse",
    "Verif.Props.PrivacyConfig.program_configured_subnet",
    "Verif.Props.PrivacyConfig.program_no_option"
   ],
   "note": "Configuration files are those of C79, ways and modifiers those of C110. What scripts and Redis caches do with the queries they get is not modelled; these queries are covered. An element that may ask is taken to ask."
  },
  {
   "property": "C124",
   "status": "proved",
   "theorems": [
    "Verif.Props.SplitConfig.program_names_apart",
    "Verif.Props.SplitConfig.program_clients_apart",
    "Verif.Props.SplitConfig.program_names_replies",
    "Verif.Props.SplitConfig.program_clients_replies",
    "Verif.Props.SplitConfig.names_kept",
    "Verif.Props.SplitConfig.clients_kept",
    "Verif.Props.SplitConfig.away_no_way"
   ],
   "note": "Configuration files are those of C79, ways to servers those of C113. That the empty regular expression matches everything is a condition on the library. Routes with more than one condition, or inverted ones, are not counted as catching."
  },
  {
   "property": "C125",
   "status": "proved",
   "theorems": [
    "Verif.Props.DialSock.as_configured",
    "Verif.Props.DialSock.as_configured_unnamed",
    "Verif.Props.DialSock.as_configured_address",
    "Verif.Props.DialSock.raced_from_home",
    "Verif.Props.DialSock.proxied_only",
    "Verif.Props.DialSock.proxy_ignored",
    "Verif.Props.DialSock.refused_opens_nothing",
    "Verif.Props.DialSock.other_systems"
   ],
   "note": "Sockets are followed up to bind and connect. The attempts of the dialer for both families by goroutines of their own are a model of the Go library, as are the hooks of the SOCKS5 library. Name look-ups are made outside namespaces and options and are not counted as sockets of the resolver."
  },
  {
   "property": "C126",
   "status": "proved",
   "theorems": [
    "Verif.Props.LimitsConfig.program_asked",
    "Verif.Props.LimitsConfig.program_limit",
    "Verif.Props.LimitsConfig.program_limit_per_window",
    "Verif.Props.LimitsConfig.costs_of_file"
   ],
   "note": "Runs and verdicts are those of C116, files those of C79. Files with two rate limiters on the ways considered are left out, since C116 tells limiters apart by what they are made of."
  },
  {
   "property": "C127",
   "status": "proved",
   "theorems": [
    "Verif.Props.TimedConfig.program_in_time",
    "Verif.Props.TimedConfig.program_effort",
    "Verif.Props.TimedConfig.program_ends",
    "Verif.Props.TimedConfig.times_of_file",
    "Verif.Props.TimedConfig.costs_of_file"
   ],
   "note": "Runs are those of C93, C94, C100 and C102; files those of C79. Lua scripts and Redis caches count as servers. That lists which were read are some list is a condition on the library (C119)."
  },
  {
   "property": "C128",
   "status": "proved",
   "theorems": [
    "Verif.Props.Stopping.stop_saves",
    "Verif.Props.Stopping.stop_saves_some",
    "Verif.Props.Stopping.can_end",
    "Verif.Props.Stopping.other_files",
    "Verif.Props.Stopping.files_real",
    "Verif.Props.Stopping.shared_file_last",
    "Verif.Props.Restart.restart_keeps"
   ],
   "note": "That a save replaces the file as a whole or leaves it is C45, when regular saves begin is C99; here they may begin at any time. The contents of caches may change in any way while the program runs and stops. can_end assumes that what the caches hold can be encoded, which C91 proves. Redis caches have nothing to save, and no function is called for them."
  }
 ]
}