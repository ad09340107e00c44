Axioms of the theorems in MANIFEST.json, by #print axioms (Lean 4.33.0)

none (14 theorems):
  Verif.Props.Balance.fastest_empty_group
  Verif.Props.DnssecServes.no_endless_validation
  Verif.Props.Filters.address_list_blocks
  Verif.Props.Filters.allowed_addresses_block
  Verif.Props.Filters.name_list_blocks
  Verif.Props.Modifiers.pad_hides
  Verif.Props.PipelineTimed.limit
  Verif.Props.Rate.rate_defaults
  Verif.Props.Rate.rate_dest
  Verif.Props.RedisFlush.flush_empty_prefix_matches_all
  Verif.Props.Settings.penalty_wraps
  Verif.Props.Settings.port_as_configured
  Verif.Props.Static.replace_order
  Verif.Props.Static.replace_unchanged

propext (50 theorems):
  Verif.Props.Available.empty_error_loses_nxdomain
  Verif.Props.Balance.Tcp.tcp_fastest_failure
  Verif.Props.Balance.Tcp.tcp_passthrough
  Verif.Props.Blocklist.blocklist_spoof_order
  Verif.Props.Cache.lifetime_max_ttl
  Verif.Props.Cache.negative_ttl_default
  Verif.Props.Composition.replace_asks
  Verif.Props.ConnectFd.interruptions_restart
  Verif.Props.Counters.client_blocklist_counts
  Verif.Props.Dedup.dedup_ignores_opcode
  Verif.Props.Dedup.dedup_key_merges
  Verif.Props.Dialing.bad_local_ignored
  Verif.Props.Dialing.quic_source_expected
  Verif.Props.Dnssec.canonical_order_strict
  Verif.Props.Dnssec.canonical_order_total
  Verif.Props.Dnssec.nil_response_panics
  Verif.Props.Dnssec.no_anchor_nothing_trusted
  Verif.Props.Dnssec.nsec3_denial_cases
  Verif.Props.Dnssec.nsec_denial_cases
  Verif.Props.Dnssec.only_answer_matters
  Verif.Props.Dnssec.trusted_own
  Verif.Props.DnssecJoin.proven_is_published
  Verif.Props.Domain.domain_case_and_dot
  Verif.Props.Elements.collapse_keeps
  Verif.Props.Elements.minimize_exact
  Verif.Props.Elements.minimize_passthrough
  Verif.Props.Elements.ttl_passthrough
  Verif.Props.FdListen.abstract_in_use
  Verif.Props.FdListen.in_use
  Verif.Props.Group.Rotate.failrotate_report
  Verif.Props.GroupTimes.reset_default
  Verif.Props.Lists.hosts_fields
  Verif.Props.Lists.multi_reload
  Verif.Props.Lists.refresh_last_good
  Verif.Props.Loader.local_keeps_last_good
  Verif.Props.LuaMethods.error_new
  Verif.Props.LuaMethods.error_text
  Verif.Props.NetnsWatch.netns_dropped_event
  Verif.Props.NetnsWatch.netns_subscribe_race
  Verif.Props.NetnsWatch.netns_two_listeners
  Verif.Props.Odoh.regex_matches
  Verif.Props.Pipeline.pipeline_outstanding_unique
  Verif.Props.Prefetch.prefetch_only_on_expiry
  Verif.Props.RedisFlush.flush_class_misses_own
  Verif.Props.RedisFlush.flush_question_matches_others
  Verif.Props.RedisFlush.pattern_matches_prefix
  Verif.Props.Setns.netns_back_fails
  Verif.Props.Setns.netns_race
  Verif.Props.Static.querylog_transparent
  Verif.Props.Upkeep.list_failed_reload

propext, Quot.sound (174 theorems):
  Verif.Props.Balance.Tcp.bubble_spec
  Verif.Props.Balance.Tcp.tcp_fastest_exact
  Verif.Props.Balance.Tcp.tcp_fastest_first
  Verif.Props.Balance.Tcp.tcp_no_choice
  Verif.Props.Balance.Tcp.tcp_waitall_failure
  Verif.Props.Balance.fastest_all_bad
  Verif.Props.Balance.fastest_first_good
  Verif.Props.Balance.fastest_good_iff
  Verif.Props.Balance.fastest_terminates
  Verif.Props.Balance.swapRemove_perm
  Verif.Props.Base64.get_url_safe
  Verif.Props.Blob.blob_encode_isSome
  Verif.Props.Blocklist.client_address
  Verif.Props.Blocklist.client_blocklist
  Verif.Props.Cache.cache_admission
  Verif.Props.Cache.cache_lifetime_limit
  Verif.Props.Cache.cache_lifetime_servfail
  Verif.Props.Cache.cache_refresh_none
  Verif.Props.Cache.cache_several_questions
  Verif.Props.Cache.higherNames_spec
  Verif.Props.Cache.load_skips_bad
  Verif.Props.Cache.storedLast_unique
  Verif.Props.Clients.doh_id_unchecked
  Verif.Props.Clients.doq_client
  Verif.Props.Clients.odoh_no_key_crashes
  Verif.Props.Composition.dns64_asks
  Verif.Props.Composition.router_asks
  Verif.Props.ConnectFd.refused_reported
  Verif.Props.Counters.cache_counts
  Verif.Props.Counters.dns64_counts
  Verif.Props.Counters.random_counts
  Verif.Props.Counters.random_gauge
  Verif.Props.Counters.rotate_counts
  Verif.Props.Dialing.configured_source
  Verif.Props.Dialing.doh_dials
  Verif.Props.Dialing.doh_quic_dials
  Verif.Props.Dialing.doq_dials
  Verif.Props.Dialing.dot_dials
  Verif.Props.Dialing.dot_dials_proxy
  Verif.Props.Dialing.dot_identity
  Verif.Props.Dialing.dot_name_from_lookup
  Verif.Props.Dialing.dtls_dials
  Verif.Props.Dialing.plain_dials
  Verif.Props.Dialing.plain_dials_proxy
  Verif.Props.Dialing.socks_dials
  Verif.Props.Dialing.socks_failed_lookup_kept
  Verif.Props.Dns64.dns64_96_nonzero_u
  Verif.Props.Dns64.dns64_embeds
  Verif.Props.Dns64.dns64_keeps
  Verif.Props.Dns64.dns64_passes
  Verif.Props.Dns64.dns64_recover
  Verif.Props.Dnssec.canonical_order_contiguous
  Verif.Props.Dnssec.nsec3_ds_sound
  Verif.Props.Dnssec.nsec3_no_ds_sound
  Verif.Props.Dnssec.nsec3_nodata_sound
  Verif.Props.Dnssec.nsec3_nxdomain_optout
  Verif.Props.Dnssec.nsec3_nxdomain_sound
  Verif.Props.Dnssec.nsec3_optout_wildcard
  Verif.Props.Dnssec.nsec_no_ds_sound
  Verif.Props.Dnssec.nsec_parent_side
  Verif.Props.Dnssec.parent_zone_escaped_dot
  Verif.Props.Dnssec.parent_zone_exact
  Verif.Props.Dnssec.root_anchors_add_up
  Verif.Props.Dnssec.sub_anchor_ignored
  Verif.Props.DnssecDenies.nsec3_accepted
  Verif.Props.DnssecDenies.nsec3_root_refused
  Verif.Props.DnssecServes.kept_anchors_used
  Verif.Props.DnssecServes.kept_keys_used
  Verif.Props.DoqConn.doq_client_waits
  Verif.Props.DoqTimed.doq_timeouts_add_up
  Verif.Props.Elements.collapse_any_query
  Verif.Props.Elements.collapse_empty
  Verif.Props.Elements.collapse_passthrough
  Verif.Props.Elements.truncate_retry_exact
  Verif.Props.Elements.ttl_no_maximum
  Verif.Props.FdListen.free_taken
  Verif.Props.FdListen.stale_taken_over
  Verif.Props.Group.Back.failback_active_valid
  Verif.Props.Group.Back.failback_progress
  Verif.Props.Group.Back.failback_reset_loses_query
  Verif.Props.Group.Back.failback_settles
  Verif.Props.Group.Back.failback_timer_or_signal
  Verif.Props.Group.Random.random_ends
  Verif.Props.Group.Random.random_failed_not_picked
  Verif.Props.Group.Rotate.failrotate_active_valid
  Verif.Props.Group.Rotate.failrotate_failover_caused
  Verif.Props.Group.failback_zero_reset
  Verif.Props.Group.failrotate_complete
  Verif.Props.Group.failrotate_sequential
  Verif.Props.Group.failure_iff
  Verif.Props.Group.roundrobin_valid
  Verif.Props.GroupTimes.Back.failback_refines
  Verif.Props.GroupTimes.Back.failback_waits
  Verif.Props.GroupTimes.Random.random_back
  Verif.Props.GroupTimes.Random.random_keeps
  Verif.Props.Limits.late_is_run
  Verif.Props.Listeners.doh_client_prefix
  Verif.Props.Listeners.doq_drop_crashes
  Verif.Props.Listeners.doq_long_response
  Verif.Props.Listeners.dtls_read_progress
  Verif.Props.Listeners.dtls_reads
  Verif.Props.Lists.refresh_multi_failure
  Verif.Props.Lists.regexp_match
  Verif.Props.Lists.regexp_upper_case_never
  Verif.Props.Loader.load_keeps_last_good
  Verif.Props.Loader.load_strict
  Verif.Props.Loader.scan_lines
  Verif.Props.Location.asn_match
  Verif.Props.Location.failed_reload_leaks
  Verif.Props.Location.geo_match
  Verif.Props.Location.geo_zero_matches
  Verif.Props.Location.no_leak_without_failure
  Verif.Props.Location.says_not_blank
  Verif.Props.Logging.log_levels
  Verif.Props.LuaMethods.error_new_refused
  Verif.Props.LuaRecord.field_place
  Verif.Props.LuaRecord.resolve_call
  Verif.Props.Modifiers.ecs_delete
  Verif.Props.Modifiers.ecs_privacy_widens
  Verif.Props.Modifiers.edns0_delete
  Verif.Props.Modifiers.pad_query
  Verif.Props.Modifiers.pad_within_limit
  Verif.Props.Modifiers.strip_padding
  Verif.Props.MoreCounters.router_gauge
  Verif.Props.NetResolver.lookup_ends
  Verif.Props.NetResolver.lookup_hangs
  Verif.Props.NetResolver.lookup_large
  Verif.Props.NetResolver.lookup_sound
  Verif.Props.NetResolver.lookup_uses
  Verif.Props.NetResolver.round_trip
  Verif.Props.NetnsEvents.hears_changes
  Verif.Props.NetnsEvents.wait_ends
  Verif.Props.OdohTimed.odoh_call_in_time
  Verif.Props.OdohTimed.odoh_failures_add_up
  Verif.Props.OdohTimed.odoh_key_kept
  Verif.Props.OdohTimed.odoh_latest_key
  Verif.Props.OdohTimed.odoh_no_limit
  Verif.Props.OdohTimed.odoh_preset_key
  Verif.Props.OdohTimed.odoh_query_conn
  Verif.Props.Pipeline.pipeline_timeout
  Verif.Props.PipelineTimed.blocked_write_blocks_all
  Verif.Props.PipelineTimed.not_given_up_early
  Verif.Props.PipelineTimed.reconnects
  Verif.Props.Prefetch.prefetch_stops
  Verif.Props.Rate.rate_backwards_clock
  Verif.Props.Rate.rate_nil_map
  Verif.Props.Rate.rate_prefix_too_long
  Verif.Props.Redis.redis_decode_rejects
  Verif.Props.RedisFlush.flush_spares_others
  Verif.Props.Route.router_first_match
  Verif.Props.Setns.netns_inside
  Verif.Props.Setns.netns_restored
  Verif.Props.Settings.prefetch_sizes
  Verif.Props.Shuffle.shuffle_random_rearranges
  Verif.Props.Static.replace_undone
  Verif.Props.Static.static_config
  Verif.Props.Static.static_fresh
  Verif.Props.Static.static_isolated
  Verif.Props.Static.syslog_lines
  Verif.Props.Stopping.files_real
  Verif.Props.Stopping.other_files
  Verif.Props.TlsConfig.half_pair_ignored
  Verif.Props.Upkeep.file_fresh
  Verif.Props.Upkeep.file_not_too_often
  Verif.Props.Upkeep.file_only_at_end
  Verif.Props.Upkeep.list_fresh
  Verif.Props.Upkeep.list_loaded_once
  Verif.Props.Upkeep.list_not_too_often
  Verif.Props.Validate.default_port_added
  Verif.Props.Validate.default_port_kept
  Verif.Props.Validate.default_port_url
  Verif.Props.Validate.endpoint_accepted
  Verif.Props.Validate.join_split
  Verif.Props.Validate.split_host_port

propext, Classical.choice, Quot.sound (626 theorems):
  Verif.Props.Asks.client_never_asks
  Verif.Props.Asks.client_replies
  Verif.Props.Asks.dnssec_passes_client_lists
  Verif.Props.Asks.guarded_never_asked
  Verif.Props.Asks.guarded_replies
  Verif.Props.Asks.keeps_name
  Verif.Props.Asks.prefetch_passes_client_lists
  Verif.Props.Asks.replace_passes_lists
  Verif.Props.Asks.replies_only_asked
  Verif.Props.AsksConfig.before_guarded
  Verif.Props.AsksConfig.before_guarded_client
  Verif.Props.AsksConfig.client_blocks
  Verif.Props.AsksConfig.clients_never_ask
  Verif.Props.AsksConfig.list_says
  Verif.Props.AsksConfig.names_never_asked
  Verif.Props.AsksConfig.old_blocks
  Verif.Props.AsksConfig.plain_keeps
  Verif.Props.AsksConfig.v2_blocks
  Verif.Props.Assemble.allowlist_format_confused
  Verif.Props.Assemble.allowlist_format_ignored
  Verif.Props.Assemble.cache_size_ignored
  Verif.Props.Assemble.careful_sane
  Verif.Props.Assemble.client_number
  Verif.Props.Assemble.client_number_bootstrap
  Verif.Props.Assemble.denotes_unique
  Verif.Props.Assemble.empty_round_robin
  Verif.Props.Assemble.group_means
  Verif.Props.Assemble.lazy_transport
  Verif.Props.Assemble.listener_acceptable
  Verif.Props.Assemble.no_operation
  Verif.Props.Assemble.options_ignored
  Verif.Props.Assemble.program_accepts
  Verif.Props.Assemble.program_belongs
  Verif.Props.Assemble.program_no_crash
  Verif.Props.Assemble.program_start
  Verif.Props.Assemble.resolver_means
  Verif.Props.Assemble.router_means
  Verif.Props.AtomicFile.atomic_changes
  Verif.Props.AtomicFile.atomic_crash
  Verif.Props.AtomicFile.atomic_crash_may_undo
  Verif.Props.AtomicFile.atomic_mode
  Verif.Props.AtomicFile.atomic_no_leftovers
  Verif.Props.AtomicFile.atomic_old_or_new
  Verif.Props.AtomicFile.atomic_success
  Verif.Props.AtomicFile.sweep_exact
  Verif.Props.AtomicFile.sweep_spares_fresh
  Verif.Props.Available.failback_order_matters
  Verif.Props.Available.one_member_suffices
  Verif.Props.Available.random_one_query_outage
  Verif.Props.Available.replies_served
  Verif.Props.AvailableConfig.config_promised
  Verif.Props.AvailableConfig.group_promised
  Verif.Props.AvailableConfig.program_available
  Verif.Props.AvailableConfig.program_promised
  Verif.Props.Balance.Tcp.tcp_fastest_ends
  Verif.Props.Balance.Tcp.tcp_fastest_loses_record
  Verif.Props.Balance.Tcp.tcp_waitall
  Verif.Props.Balance.loadbalance_average_bounds
  Verif.Props.Balance.loadbalance_average_min
  Verif.Props.Balance.loadbalance_each_once
  Verif.Props.Balance.loadbalance_failure_never_rewards
  Verif.Props.Balance.loadbalance_first_failure
  Verif.Props.Balance.loadbalance_pick_uniform
  Verif.Props.Balance.loadbalance_pick_valid
  Verif.Props.Balance.loadbalance_pick_weighted
  Verif.Props.Balance.loadbalance_recovers
  Verif.Props.Balance.loadbalance_small_penalty_rewards
  Verif.Props.Balance.loadbalance_success
  Verif.Props.Balance.loadbalance_walk_valid
  Verif.Props.Balance.loadbalance_weight
  Verif.Props.Balance.sample_ge_one
  Verif.Props.BalanceFloat.average_bounds
  Verif.Props.BalanceFloat.average_range
  Verif.Props.BalanceFloat.constants
  Verif.Props.BalanceFloat.exploration_share
  Verif.Props.BalanceFloat.explore_uniform
  Verif.Props.BalanceFloat.explore_valid
  Verif.Props.BalanceFloat.failure_never_rewards
  Verif.Props.BalanceFloat.penalty_counts
  Verif.Props.BalanceFloat.pick_after
  Verif.Props.BalanceFloat.pick_valid
  Verif.Props.BalanceFloat.pick_weighted
  Verif.Props.BalanceFloat.recovers
  Verif.Props.BalanceFloat.weight_range
  Verif.Props.Base64.get_accepts
  Verif.Props.Base64.get_injective
  Verif.Props.Base64.get_roundtrip
  Verif.Props.Blob.blob_keyRegion_eq_iff
  Verif.Props.Blob.blob_matches_iff
  Verif.Props.Blob.blob_matches_total
  Verif.Props.Blob.blob_roundtrip
  Verif.Props.Blocklist.blocklist_allow
  Verif.Props.Blocklist.blocklist_block
  Verif.Props.Blocklist.blocklist_domains
  Verif.Props.Blocklist.blocklist_pass
  Verif.Props.Blocklist.blocklist_upstream_iff
  Verif.Props.Blocklist.ede_content
  Verif.Props.Blocklist.response_ip_block
  Verif.Props.Blocklist.response_ip_clean
  Verif.Props.Blocklist.response_ip_filter
  Verif.Props.Blocklist.response_ip_nodata_denied
  Verif.Props.Blocklist.response_ip_passthrough
  Verif.Props.Blocklist.response_ip_unchecked_codes
  Verif.Props.Blocklist.response_name
  Verif.Props.Blocklist.response_name_domains
  Verif.Props.Blocklist.response_name_passthrough
  Verif.Props.Buffers.async_writes_reordered
  Verif.Props.Buffers.buffers_not_shared
  Verif.Props.Buffers.bytes_intact
  Verif.Props.Buffers.calls_go_on
  Verif.Props.Buffers.redis_gets
  Verif.Props.Buffers.redis_sends_encoding
  Verif.Props.Buffers.writes_bounded
  Verif.Props.Cache.cache_file_roundtrip
  Verif.Props.Cache.cache_hardening_exact
  Verif.Props.Cache.cache_hardening_sound
  Verif.Props.Cache.cache_hit_is_last_stored
  Verif.Props.Cache.cache_lifetime
  Verif.Props.Cache.cache_never_panics
  Verif.Props.Cache.cache_never_stale
  Verif.Props.Cache.cache_refresh_end
  Verif.Props.Cache.cache_refresh_not_shorter
  Verif.Props.Cache.cache_refresh_start
  Verif.Props.Cache.cache_resolve_sound
  Verif.Props.Cache.cache_resolve_total
  Verif.Props.Cache.hardening_escaped_dot
  Verif.Props.Cache.hit_justified
  Verif.Props.Cache.refresh_eligible_boundary
  Verif.Props.Cache.refresh_servfail_replaces
  Verif.Props.CacheLives.flushed_comes_back
  Verif.Props.CacheLives.never_panics
  Verif.Props.CacheLives.nothing_lost
  Verif.Props.CacheLives.replaced_comes_back
  Verif.Props.CacheLives.served_after_restarts
  Verif.Props.CacheLives.within_capacity
  Verif.Props.Cidr.cidr_load_iff
  Verif.Props.Cidr.cidr_mapped_wrong
  Verif.Props.Cidr.cidr_match_iff
  Verif.Props.Cidr.cidr_match_rule
  Verif.Props.Cidr.cidr_order
  Verif.Props.Cidr.normalize_text
  Verif.Props.Clients.doh_client
  Verif.Props.Clients.doh_client_early
  Verif.Props.Clients.dot_query
  Verif.Props.Clients.encrypted_query
  Verif.Props.Clients.odoh_client
  Verif.Props.Clients.odoh_key_fresh
  Verif.Props.Clients.plain_query
  Verif.Props.Composition.clients_good
  Verif.Props.Composition.dnssec_asks
  Verif.Props.Composition.insane_crash
  Verif.Props.Composition.listener_belongs
  Verif.Props.Composition.no_crash
  Verif.Props.Composition.reply_belongs
  Verif.Props.Config.config_accepted
  Verif.Props.Config.config_bootstrap_only_listeners
  Verif.Props.Config.config_no_repeats
  Verif.Props.Config.config_order
  Verif.Props.Config.config_rejected
  Verif.Props.Config.config_sections
  Verif.Props.Config.config_start
  Verif.Props.ConnectFd.success_iff
  Verif.Props.ConnectFd.timeout_iff
  Verif.Props.ConnectFd.waits_bounded
  Verif.Props.Counters.back_counts
  Verif.Props.Counters.back_failovers
  Verif.Props.Counters.blocklist_counts
  Verif.Props.Counters.dnssec_counts
  Verif.Props.Counters.doh_counts
  Verif.Props.Counters.doh_response_code
  Verif.Props.Counters.listener_counts
  Verif.Props.Counters.own_variables
  Verif.Props.Counters.rate_counts
  Verif.Props.Counters.registers
  Verif.Props.Dedup.dedup_all_return
  Verif.Props.Dedup.dedup_answer
  Verif.Props.Dedup.dedup_ignores_later_subnets
  Verif.Props.Dedup.dedup_key_separates
  Verif.Props.Dedup.dedup_merges_zero_subnet
  Verif.Props.Dedup.dedup_one_upstream
  Verif.Props.Dedup.dedup_progress
  Verif.Props.DialSock.as_configured
  Verif.Props.DialSock.as_configured_address
  Verif.Props.DialSock.as_configured_unnamed
  Verif.Props.DialSock.other_systems
  Verif.Props.DialSock.proxied_only
  Verif.Props.DialSock.proxy_ignored
  Verif.Props.DialSock.raced_from_home
  Verif.Props.DialSock.refused_opens_nothing
  Verif.Props.Dns64.dns64_prefixes
  Verif.Props.Dns64.dns64_synthesizes
  Verif.Props.Dnssec.canonical_order_rfc
  Verif.Props.Dnssec.chain_terminates
  Verif.Props.Dnssec.ds_owner_ignored
  Verif.Props.Dnssec.insecure_is_proven
  Verif.Props.Dnssec.keys_outlive_signatures
  Verif.Props.Dnssec.no_anchor_fails_closed
  Verif.Props.Dnssec.nsec3_owner_taken_as_covered
  Verif.Props.Dnssec.nsec_empty_nonterminal
  Verif.Props.Dnssec.nsec_nodata_sound
  Verif.Props.Dnssec.nsec_nxdomain_sound
  Verif.Props.Dnssec.nsec_root_wildcard
  Verif.Props.Dnssec.only_signatures_accepted
  Verif.Props.Dnssec.validated_answers_signed
  Verif.Props.Dnssec.validated_denial_signed
  Verif.Props.Dnssec.validated_denial_true
  Verif.Props.Dnssec.validated_is_published
  Verif.Props.Dnssec.verdict_depends_on_map_order
  Verif.Props.DnssecDenies.denial_accepted
  Verif.Props.DnssecDenies.nsec_accepted
  Verif.Props.DnssecDenies.nsec_empty_nonterminal_refused
  Verif.Props.DnssecJoin.ad_means_proven
  Verif.Props.DnssecJoin.client_gets
  Verif.Props.DnssecJoin.client_gets_denial
  Verif.Props.DnssecJoin.tree_gets
  Verif.Props.DnssecResolver.ad_means_validated
  Verif.Props.DnssecResolver.anchor_not_yet_valid
  Verif.Props.DnssecResolver.anchors_chosen
  Verif.Props.DnssecResolver.bogus_blocked
  Verif.Props.DnssecResolver.failure_passed_on
  Verif.Props.DnssecResolver.fetched_anchors
  Verif.Props.DnssecResolver.no_question_panics
  Verif.Props.DnssecResolver.unvalidated_shown
  Verif.Props.DnssecResolver.upstream_ad_passed_on
  Verif.Props.DnssecResolver.upstream_asked
  Verif.Props.DnssecResolver.valid_shown
  Verif.Props.DnssecResolver.without_hidden
  Verif.Props.DnssecServes.below_empty_nonterminal_bogus
  Verif.Props.DnssecServes.can_finish
  Verif.Props.DnssecServes.distant_parent_rejected
  Verif.Props.DnssecServes.no_panic
  Verif.Props.DnssecServes.signed_answer_accepted
  Verif.Props.DnssecServes.single_key_rejected
  Verif.Props.DnssecServes.unsigned_answer_insecure
  Verif.Props.DnssecServes.unsigned_denial_insecure
  Verif.Props.Domain.domain_blank_line_blocks_root
  Verif.Props.Domain.domain_complete
  Verif.Props.Domain.domain_hole_overblocks
  Verif.Props.Domain.domain_load_iff
  Verif.Props.Domain.domain_match_iff
  Verif.Props.Domain.domain_order
  Verif.Props.Domain.domain_reported
  Verif.Props.DoqConn.doq_client_early
  Verif.Props.DoqConn.doq_client_exclusive
  Verif.Props.DoqTimed.doq_call_in_time
  Verif.Props.Effort.asked_bounded
  Verif.Props.Elements.minimize_drops_edns
  Verif.Props.Elements.ttl_limits
  Verif.Props.Elements.ttl_no_records
  Verif.Props.Elements.ttl_select
  Verif.Props.Elements.ttl_within
  Verif.Props.Entries.entries_fresh
  Verif.Props.Entries.entries_real
  Verif.Props.Exist.always_reply
  Verif.Props.Exist.config_ready
  Verif.Props.Exist.fastest_empty
  Verif.Props.Exist.program_replies
  Verif.Props.Exist.replies_exist
  Verif.Props.FdListen.abstract_one_server
  Verif.Props.FdListen.foreign_kept
  Verif.Props.FdListen.mode_read
  Verif.Props.FdListen.mode_zero_ignored
  Verif.Props.FdListen.one_server
  Verif.Props.FdListen.others_socket_kept
  Verif.Props.FdListen.permissions
  Verif.Props.FdListen.stop_cleans
  Verif.Props.Filters.dedup_before_client_list
  Verif.Props.Filters.dns64_behind_list
  Verif.Props.Filters.no_listed_address
  Verif.Props.Filters.no_listed_name
  Verif.Props.Filters.replies_clean
  Verif.Props.Float64.nearest_exists
  Verif.Props.Fresh.caches_round_down
  Verif.Props.Fresh.min_ttl_raises
  Verif.Props.Fresh.records_fresh
  Verif.Props.Fresh.records_not_after
  Verif.Props.Fresh.records_now
  Verif.Props.Group.Back.failback_concurrent_complete
  Verif.Props.Group.Back.failback_returns
  Verif.Props.Group.Random.random_loses_nothing
  Verif.Props.Group.Rotate.failrotate_attempts
  Verif.Props.Group.Rotate.failrotate_concurrent_complete
  Verif.Props.Group.blocked_alias_fails
  Verif.Props.Group.roundrobin_fair
  Verif.Props.GroupTimes.Back.failback_not_early
  Verif.Props.GroupTimes.Back.failback_not_late
  Verif.Props.GroupTimes.Back.failback_on_time
  Verif.Props.GroupTimes.Random.random_rests
  Verif.Props.History.cached_reply
  Verif.Props.History.replies_more
  Verif.Props.History.run_belongs
  Verif.Props.History.run_clean
  Verif.Props.History.run_fresh
  Verif.Props.History.run_no_crash
  Verif.Props.History.run_served
  Verif.Props.History.run_validated
  Verif.Props.History.run_validated_rest
  Verif.Props.Keystore.keystore_once
  Verif.Props.Keystore.keystore_pending
  Verif.Props.Keystore.keystore_right
  Verif.Props.Keystore.served_keys_alive
  Verif.Props.LifeCycle.can_start
  Verif.Props.LifeCycle.closed_when_returned
  Verif.Props.LifeCycle.closed_when_stopped
  Verif.Props.LifeCycle.dns_stays_down
  Verif.Props.LifeCycle.doq_never_returns
  Verif.Props.LifeCycle.early_stop
  Verif.Props.LifeCycle.h3_stays_down
  Verif.Props.LifeCycle.http_comes_back
  Verif.Props.LifeCycle.stays_up
  Verif.Props.LifeCycle.stop_ends
  Verif.Props.LifeCycle.xs_early_stop
  Verif.Props.Limits.asked_passed
  Verif.Props.Limits.boundary_restarts
  Verif.Props.Limits.limit_holds
  Verif.Props.Limits.limit_per_window
  Verif.Props.LimitsConfig.costs_of_file
  Verif.Props.LimitsConfig.program_asked
  Verif.Props.LimitsConfig.program_limit
  Verif.Props.LimitsConfig.program_limit_per_window
  Verif.Props.ListenSock.dtls_name_means_everywhere
  Verif.Props.ListenSock.dtls_socket
  Verif.Props.ListenSock.socket_as_configured
  Verif.Props.ListenSock.unsound_opens_nothing
  Verif.Props.ListenSock.version_heeded_iff
  Verif.Props.Listeners.datagram_fits
  Verif.Props.Listeners.dns_listener
  Verif.Props.Listeners.doh_client
  Verif.Props.Listeners.doh_client_peer
  Verif.Props.Listeners.doh_early_data
  Verif.Props.Listeners.doh_listener
  Verif.Props.Listeners.doq_early_data
  Verif.Props.Listeners.doq_listener
  Verif.Props.Listeners.drop_never_crashes
  Verif.Props.Listeners.udp_restricted_not_cut
  Verif.Props.Lists.hosts_match
  Verif.Props.Lists.hosts_ptr
  Verif.Props.Lists.hosts_trailing_comment_blocks
  Verif.Props.Lists.list_never_used_closed
  Verif.Props.Lists.mac_load_iff
  Verif.Props.Lists.mac_match_iff
  Verif.Props.Lists.mac_parse_iff
  Verif.Props.Lists.multi_match
  Verif.Props.Loader.cache_loses_cr
  Verif.Props.Loader.cache_restart
  Verif.Props.Loader.cache_roundtrip
  Verif.Props.Loader.scan_too_long
  Verif.Props.Location.databases_open
  Verif.Props.Location.ids_loaded
  Verif.Props.Location.never_used_closed
  Verif.Props.Logging.log_lines
  Verif.Props.Logging.log_writes_nothing
  Verif.Props.Lru.lru_capacity
  Verif.Props.Lru.lru_evicts_least_recently_used
  Verif.Props.Lru.lru_get_never_crosses_keys
  Verif.Props.Lru.lru_refines_list
  Verif.Props.Lru.lru_unbounded_exact
  Verif.Props.Lua.lua_exclusive
  Verif.Props.Lua.lua_own_reply
  Verif.Props.Lua.lua_progress
  Verif.Props.Lua.lua_reply
  Verif.Props.Lua.lua_stack
  Verif.Props.Lua.lua_wears_out
  Verif.Props.LuaBind.assignable
  Verif.Props.LuaBind.assigned_read
  Verif.Props.LuaBind.assigns_to_objects
  Verif.Props.LuaBind.does_is
  Verif.Props.LuaBind.does_ordered
  Verif.Props.LuaBind.is_edns0
  Verif.Props.LuaBind.message_new
  Verif.Props.LuaBind.new_objects
  Verif.Props.LuaBind.opt_new
  Verif.Props.LuaBind.option_code
  Verif.Props.LuaBind.option_new
  Verif.Props.LuaBind.options_handles
  Verif.Props.LuaBind.others_unchanged
  Verif.Props.LuaBind.question_new
  Verif.Props.LuaBind.questions_handles
  Verif.Props.LuaBind.readable_fields
  Verif.Props.LuaBind.records_handles
  Verif.Props.LuaBind.refused_unchanged
  Verif.Props.LuaBind.refused_unchanged_direct
  Verif.Props.LuaBind.runs_safe
  Verif.Props.LuaBind.set_edns0
  Verif.Props.LuaBind.set_question
  Verif.Props.LuaBind.set_reply
  Verif.Props.LuaMethods.methods
  Verif.Props.LuaMethods.methods_error
  Verif.Props.LuaMethods.methods_resolver
  Verif.Props.LuaRecord.client_read
  Verif.Props.LuaRecord.loaders_removed
  Verif.Props.LuaRecord.resolve_not_api
  Verif.Props.LuaRecord.rr_new_ok
  Verif.Props.LuaRecord.rr_new_order
  Verif.Props.LuaRecord.rr_new_read
  Verif.Props.LuaRecord.sandbox
  Verif.Props.LuaRecord.script_globals
  Verif.Props.Modifiers.ecs_add
  Verif.Props.Modifiers.ecs_add_bad_prefix
  Verif.Props.Modifiers.ecs_add_if_missing
  Verif.Props.Modifiers.ecs_privacy
  Verif.Props.Modifiers.edns0_add
  Verif.Props.Modifiers.edns0_add_exactly_one
  Verif.Props.Modifiers.pad_answer
  Verif.Props.Modifiers.pad_query_panics
  Verif.Props.MoreCounters.balance_counts
  Verif.Props.MoreCounters.doh_client_counts
  Verif.Props.MoreCounters.doq_client_counts
  Verif.Props.MoreCounters.doq_counts
  Verif.Props.MoreCounters.doq_response_code
  Verif.Props.MoreCounters.odoh_counts
  Verif.Props.MoreCounters.odoh_uncounted
  Verif.Props.MoreCounters.roundrobin_counts
  Verif.Props.MoreCounters.router_counts
  Verif.Props.NetResolver.bootstrap_ends
  Verif.Props.NetnsEvents.events_understood
  Verif.Props.NetnsEvents.others_do_not_matter
  Verif.Props.NetnsEvents.wait_sleeps
  Verif.Props.NetnsWatch.netns_can_settle
  Verif.Props.NetnsWatch.netns_give_up_late
  Verif.Props.NetnsWatch.netns_lost_only
  Verif.Props.NetnsWatch.netns_one_listener
  Verif.Props.NetnsWatch.netns_settled
  Verif.Props.NetnsWatch.netns_settled_absent
  Verif.Props.NetnsWatch.netns_settles
  Verif.Props.NetnsWatch.netns_state_arrives
  Verif.Props.NetnsWatch.netns_stuck_settled
  Verif.Props.Odoh.host_checked
  Verif.Props.Odoh.odoh_allowed_net_ignored
  Verif.Props.Odoh.odoh_end_to_end
  Verif.Props.Odoh.odoh_modes
  Verif.Props.Odoh.odoh_only
  Verif.Props.Odoh.odoh_proxy
  Verif.Props.Odoh.odoh_proxy_broken
  Verif.Props.Odoh.odoh_proxy_cuts
  Verif.Props.Odoh.odoh_proxy_host
  Verif.Props.Odoh.odoh_proxy_response
  Verif.Props.Odoh.odoh_target
  Verif.Props.OdohTimed.odoh_key_conn
  Verif.Props.OdohTimed.odoh_no_socks
  Verif.Props.OdohTimed.odoh_quic_key_name
  Verif.Props.PipeCounters.maxqueue
  Verif.Props.PipeCounters.pipeline_counts
  Verif.Props.Pipeline.pipeline_answer
  Verif.Props.Pipeline.pipeline_can_send
  Verif.Props.Pipeline.pipeline_completed
  Verif.Props.Pipeline.pipeline_drain
  Verif.Props.Pipeline.pipeline_id_available
  Verif.Props.Pipeline.pipeline_ids_distinct
  Verif.Props.Pipeline.pipeline_no_panic
  Verif.Props.Pipeline.pipeline_not_lost
  Verif.Props.Pipeline.pipeline_sends
  Verif.Props.Pipeline.pipeline_sends_abandoned
  Verif.Props.PipelineTimed.call_in_time
  Verif.Props.PipelineTimed.completed_in_time
  Verif.Props.PipelineTimed.silent_connection_dropped
  Verif.Props.Prefetch.prefetch_defaults
  Verif.Props.Prefetch.prefetch_only_frequent
  Verif.Props.Prefetch.prefetch_window_slides
  Verif.Props.Privacy.first_of_two_kept
  Verif.Props.Privacy.gets_asked
  Verif.Props.Privacy.no_client_subnet
  Verif.Props.Privacy.no_option
  Verif.Props.Privacy.only_coarse_subnets
  Verif.Props.Privacy.only_configured_subnet
  Verif.Props.Privacy.only_good_options
  Verif.Props.Privacy.options_make_no_difference
  Verif.Props.Privacy.replies_only_got
  Verif.Props.PrivacyConfig.program_coarse
  Verif.Props.PrivacyConfig.program_configured_subnet
  Verif.Props.PrivacyConfig.program_no_option
  Verif.Props.PrivacyConfig.program_no_subnet
  Verif.Props.PrivacyConfig.program_options
  Verif.Props.PrivacyConfig.ways_of_file
  Verif.Props.Probes.fastest_one
  Verif.Props.Probes.probe_holds
  Verif.Props.Probes.probe_never_waits
  Verif.Props.Probes.probes_bounded
  Verif.Props.Probes.probes_end
  Verif.Props.Probes.probes_few
  Verif.Props.Probes.probes_in_time
  Verif.Props.Probes.probes_where
  Verif.Props.Probes.waitall_reply
  Verif.Props.Races.blocklist_locks
  Verif.Props.Races.blocklist_no_race
  Verif.Props.Races.dedup_locks
  Verif.Props.Races.dedup_no_race
  Verif.Props.Races.failback_locks
  Verif.Props.Races.failback_no_race
  Verif.Props.Races.failrotate_locks
  Verif.Props.Races.failrotate_no_race
  Verif.Props.Races.keystore_locks
  Verif.Props.Races.keystore_no_race
  Verif.Props.Races.listener_locks
  Verif.Props.Races.listener_no_race
  Verif.Props.Races.lists_locks
  Verif.Props.Races.lists_no_race
  Verif.Props.Races.loadbalance_locks
  Verif.Props.Races.loadbalance_no_race
  Verif.Props.Races.memory_locks
  Verif.Props.Races.memory_no_race
  Verif.Props.Races.odoh_locks
  Verif.Props.Races.odoh_no_race
  Verif.Props.Races.pipeline_locks
  Verif.Props.Races.pipeline_no_race
  Verif.Props.Races.quic_locks
  Verif.Props.Races.quic_no_race
  Verif.Props.Races.random_locks
  Verif.Props.Races.random_no_race
  Verif.Props.Races.ratelimiter_locks
  Verif.Props.Races.ratelimiter_no_race
  Verif.Props.Races.roundrobin_locks
  Verif.Props.Races.roundrobin_no_race
  Verif.Props.Races.shuffle_locks
  Verif.Props.Races.shuffle_no_race
  Verif.Props.Races.socks_locks
  Verif.Props.Races.socks_no_race
  Verif.Props.Races.watcher_locks
  Verif.Props.Races.watcher_no_race
  Verif.Props.Races.xsocket_locks
  Verif.Props.Races.xsocket_no_race
  Verif.Props.Rate.rate_limit_exact
  Verif.Props.Rate.rate_same_network
  Verif.Props.Redis.redis_codec_roundtrip
  Verif.Props.Redis.redis_decode_total
  Verif.Props.Redis.redis_key_same
  Verif.Props.Redis.redis_key_separates
  Verif.Props.Redis.redis_key_two_subnets
  Verif.Props.Redis.redis_never_stale
  Verif.Props.RedisFlush.flush_empties
  Verif.Props.RedisFlush.flush_removes_entries
  Verif.Props.ReplyConfig.config_counted
  Verif.Props.ReplyConfig.config_filtered
  Verif.Props.ReplyConfig.config_screened
  Verif.Props.ReplyConfig.program_fresh
  Verif.Props.ReplyConfig.program_no_address
  Verif.Props.ReplyConfig.program_no_name
  Verif.Props.ReplyConfig.program_validated
  Verif.Props.Restart.restart_keeps
  Verif.Props.Route.route_contains
  Verif.Props.Route.route_matches_iff
  Verif.Props.Route.route_time_parse
  Verif.Props.Route.route_window_across_midnight
  Verif.Props.Settings.backend_without_type
  Verif.Props.Settings.cache_backends
  Verif.Props.Settings.cache_in_memory
  Verif.Props.Settings.cache_in_redis
  Verif.Props.Settings.cache_without_backend
  Verif.Props.Settings.lua_as_configured
  Verif.Props.Settings.penalty_as_configured
  Verif.Props.Settings.prefetch_as_configured
  Verif.Props.Settings.rate_limit_as_configured
  Verif.Props.Settings.refresh_as_configured
  Verif.Props.Shared.query_kept
  Verif.Props.SharedAsks.asked_as_values
  Verif.Props.SharedAsks.late_member_asks_original_name
  Verif.Props.SharedEnds.empty_fastest_never_replies
  Verif.Props.SharedEnds.every_query_ends
  Verif.Props.SharedEnds.halts_only_done
  Verif.Props.SharedEnds.no_endless_run
  Verif.Props.SharedReplies.replies_apart
  Verif.Props.SharedReplies.reply_kept
  Verif.Props.Shuffle.shuffle_roundrobin_fair
  Verif.Props.Shuffle.shuffle_roundrobin_rearranges
  Verif.Props.Split.capitals_pass_routes
  Verif.Props.Split.clients_apart
  Verif.Props.Split.clients_apart_replies
  Verif.Props.Split.listener_route_catches
  Verif.Props.Split.name_route_catches
  Verif.Props.Split.names_apart
  Verif.Props.Split.names_apart_replies
  Verif.Props.Split.prefetch_forgets_client
  Verif.Props.Split.source_route_catches
  Verif.Props.SplitConfig.away_no_way
  Verif.Props.SplitConfig.clients_kept
  Verif.Props.SplitConfig.names_kept
  Verif.Props.SplitConfig.program_clients_apart
  Verif.Props.SplitConfig.program_clients_replies
  Verif.Props.SplitConfig.program_names_apart
  Verif.Props.SplitConfig.program_names_replies
  Verif.Props.Static.replace_case
  Verif.Props.Static.static_answers
  Verif.Props.Static.static_blank_panics
  Verif.Props.Static.syslog_transparent
  Verif.Props.Static.template_answers
  Verif.Props.Stopping.can_end
  Verif.Props.Stopping.shared_file_last
  Verif.Props.Stopping.stop_saves
  Verif.Props.Stopping.stop_saves_some
  Verif.Props.Timed.reply_in_time
  Verif.Props.TimedConfig.costs_of_file
  Verif.Props.TimedConfig.program_effort
  Verif.Props.TimedConfig.program_ends
  Verif.Props.TimedConfig.program_in_time
  Verif.Props.TimedConfig.times_of_file
  Verif.Props.TlsConfig.client_config
  Verif.Props.TlsConfig.mutual_tls
  Verif.Props.TlsConfig.server_config
  Verif.Props.Upkeep.expired_entries_go
  Verif.Props.Upkeep.negative_interval_never_rests
  Verif.Props.Validate.default_port_accepted
  Verif.Props.Validate.default_port_ipv6
  Verif.Props.Validate.hostname_accepted
  Verif.Props.Validate.hostname_chars
  Verif.Props.Validate.hostname_empty_label
  Verif.Props.Validate.hostname_long_label
  Verif.Props.Validate.hostname_proper
  Verif.Props.Validated.answers_proven
  Verif.Props.Validated.answers_published
  Verif.Props.Validated.nothing_passes
  Verif.Props.Validated.other_codes_pass
  Verif.Props.Validated.records_validated
  Verif.Props.Xsocket.allowed_iff
  Verif.Props.Xsocket.client_checks
  Verif.Props.Xsocket.client_keeps_one
  Verif.Props.Xsocket.client_leaks
  Verif.Props.Xsocket.client_request
  Verif.Props.Xsocket.dial
  Verif.Props.Xsocket.end_to_end
  Verif.Props.Xsocket.listen_packet
  Verif.Props.Xsocket.listen_stream
  Verif.Props.Xsocket.own_requests_harmless
  Verif.Props.Xsocket.server_keeps_none
  Verif.Props.Xsocket.server_restricted
  Verif.Props.Xsocket.server_serves
  Verif.Props.Xsocket.sockaddr_for
