import Verif.Lemmas.Blob
import Verif.Lemmas.Bytes
import Verif.Lemmas.Cache
import Verif.Lemmas.Dnssec
import Verif.Lemmas.DnssecDenial
import Verif.Lemmas.DnssecName
import Verif.Lemmas.DnssecServes
import Verif.Lemmas.Domain
import Verif.Lemmas.DomainSet
import Verif.Lemmas.Edns
import Verif.Lemmas.Letters
import Verif.Lemmas.Lru
import Verif.Lemmas.LuaBind
import Verif.Lemmas.Net
import Verif.Lemmas.NetnsWatch
import Verif.Lemmas.Pipeline
import Verif.Lemmas.PipelineHist
import Verif.Lemmas.SharedGhost
import Verif.Lemmas.Str
import Verif.Model.Asks
import Verif.Model.Assemble
import Verif.Model.AtomicFile
import Verif.Model.Balance
import Verif.Model.BalanceFloat
import Verif.Model.Base64
import Verif.Model.Blob
import Verif.Model.Blocklist
import Verif.Model.Buffers
import Verif.Model.Bytes
import Verif.Model.Cache
import Verif.Model.CacheFile
import Verif.Model.CacheLives
import Verif.Model.Cidr
import Verif.Model.Clients
import Verif.Model.Composition
import Verif.Model.Config
import Verif.Model.ConnectFd
import Verif.Model.Counters
import Verif.Model.Dedup
import Verif.Model.DialSock
import Verif.Model.Dialing
import Verif.Model.Dns
import Verif.Model.Dns64
import Verif.Model.Dnssec
import Verif.Model.DnssecDenial
import Verif.Model.DnssecJoin
import Verif.Model.DnssecName
import Verif.Model.DnssecResolver
import Verif.Model.Domain
import Verif.Model.DoqConn
import Verif.Model.DoqTimed
import Verif.Model.Elements
import Verif.Model.Entries
import Verif.Model.FdListen
import Verif.Model.Float64
import Verif.Model.Gets
import Verif.Model.Group
import Verif.Model.GroupTimes
import Verif.Model.History
import Verif.Model.Keystore
import Verif.Model.LifeCycle
import Verif.Model.Limits
import Verif.Model.LimitsConfig
import Verif.Model.ListenSock
import Verif.Model.Listeners
import Verif.Model.Lists
import Verif.Model.Loader
import Verif.Model.Location
import Verif.Model.Logging
import Verif.Model.Lru
import Verif.Model.Lua
import Verif.Model.LuaBind
import Verif.Model.LuaError
import Verif.Model.Modifiers
import Verif.Model.MoreCounters
import Verif.Model.Net
import Verif.Model.NetResolver
import Verif.Model.NetnsEvents
import Verif.Model.NetnsWatch
import Verif.Model.Odoh
import Verif.Model.OdohTimed
import Verif.Model.PipeCounters
import Verif.Model.Pipeline
import Verif.Model.PipelineTimed
import Verif.Model.Prefetch
import Verif.Model.Probes
import Verif.Model.Races
import Verif.Model.Rate
import Verif.Model.Redis
import Verif.Model.RedisFlush
import Verif.Model.Regex
import Verif.Model.Route
import Verif.Model.Setns
import Verif.Model.Settings
import Verif.Model.Shared
import Verif.Model.Shuffle
import Verif.Model.Static
import Verif.Model.Stopping
import Verif.Model.Timed
import Verif.Model.Upkeep
import Verif.Model.Validate
import Verif.Model.Xsocket
import Verif.Props.Asks
import Verif.Props.AsksConfig
import Verif.Props.Assemble
import Verif.Props.AtomicFile
import Verif.Props.Available
import Verif.Props.AvailableConfig
import Verif.Props.Balance
import Verif.Props.BalanceFloat
import Verif.Props.Base64
import Verif.Props.Blob
import Verif.Props.Blocklist
import Verif.Props.Buffers
import Verif.Props.Cache
import Verif.Props.CacheLives
import Verif.Props.Cidr
import Verif.Props.Clients
import Verif.Props.Composition
import Verif.Props.Config
import Verif.Props.ConnectFd
import Verif.Props.Counters
import Verif.Props.Dedup
import Verif.Props.DialSock
import Verif.Props.Dialing
import Verif.Props.Dns64
import Verif.Props.DnssecAnchors
import Verif.Props.DnssecChain
import Verif.Props.DnssecDenies
import Verif.Props.DnssecJoin
import Verif.Props.DnssecName
import Verif.Props.DnssecNsec
import Verif.Props.DnssecNsec3
import Verif.Props.DnssecResolver
import Verif.Props.DnssecRuns
import Verif.Props.DnssecServes
import Verif.Props.Domain
import Verif.Props.DoqConn
import Verif.Props.DoqTimed
import Verif.Props.Effort
import Verif.Props.Elements
import Verif.Props.Entries
import Verif.Props.Exist
import Verif.Props.FdListen
import Verif.Props.Filters
import Verif.Props.Float64
import Verif.Props.Fresh
import Verif.Props.Group
import Verif.Props.GroupTimes
import Verif.Props.History
import Verif.Props.Keystore
import Verif.Props.LifeCycle
import Verif.Props.Limits
import Verif.Props.LimitsConfig
import Verif.Props.ListenSock
import Verif.Props.Listeners
import Verif.Props.Lists
import Verif.Props.Loader
import Verif.Props.Location
import Verif.Props.Logging
import Verif.Props.Lru
import Verif.Props.Lua
import Verif.Props.LuaBind
import Verif.Props.LuaMethods
import Verif.Props.LuaRecord
import Verif.Props.Modifiers
import Verif.Props.MoreCounters
import Verif.Props.NetResolver
import Verif.Props.NetnsEvents
import Verif.Props.NetnsWatch
import Verif.Props.Odoh
import Verif.Props.OdohTimed
import Verif.Props.PipeCounters
import Verif.Props.Pipeline
import Verif.Props.PipelineTimed
import Verif.Props.Prefetch
import Verif.Props.Privacy
import Verif.Props.PrivacyConfig
import Verif.Props.Probes
import Verif.Props.Races
import Verif.Props.Rate
import Verif.Props.Records
import Verif.Props.Redis
import Verif.Props.RedisFlush
import Verif.Props.ReplyConfig
import Verif.Props.Restart
import Verif.Props.Route
import Verif.Props.Setns
import Verif.Props.Settings
import Verif.Props.Shared
import Verif.Props.SharedAsks
import Verif.Props.SharedEnds
import Verif.Props.SharedReplies
import Verif.Props.Shuffle
import Verif.Props.Split
import Verif.Props.SplitConfig
import Verif.Props.Static
import Verif.Props.Stopping
import Verif.Props.Timed
import Verif.Props.TimedConfig
import Verif.Props.Upkeep
import Verif.Props.Validate
import Verif.Props.Validated
import Verif.Props.Xsocket
import Verif.Spec.Asks
import Verif.Spec.AsksConfig
import Verif.Spec.Assemble
import Verif.Spec.AtomicFile
import Verif.Spec.Available
import Verif.Spec.AvailableConfig
import Verif.Spec.Balance
import Verif.Spec.Blocklist
import Verif.Spec.Buffers
import Verif.Spec.Cache
import Verif.Spec.CacheLives
import Verif.Spec.Cidr
import Verif.Spec.Clients
import Verif.Spec.Composition
import Verif.Spec.Config
import Verif.Spec.ConnectFd
import Verif.Spec.Counters
import Verif.Spec.Dedup
import Verif.Spec.DialSock
import Verif.Spec.Dialing
import Verif.Spec.Dns64
import Verif.Spec.Dnssec
import Verif.Spec.DnssecDenial
import Verif.Spec.DnssecDenies
import Verif.Spec.DnssecJoin
import Verif.Spec.DnssecName
import Verif.Spec.DnssecResolver
import Verif.Spec.DnssecServes
import Verif.Spec.Domain
import Verif.Spec.Edns
import Verif.Spec.Effort
import Verif.Spec.Elements
import Verif.Spec.Entries
import Verif.Spec.Exist
import Verif.Spec.FdListen
import Verif.Spec.Filters
import Verif.Spec.Fresh
import Verif.Spec.Group
import Verif.Spec.GroupTimes
import Verif.Spec.Keystore
import Verif.Spec.Letters
import Verif.Spec.LifeCycle
import Verif.Spec.Limits
import Verif.Spec.LimitsConfig
import Verif.Spec.ListenSock
import Verif.Spec.Listeners
import Verif.Spec.Lists
import Verif.Spec.Loader
import Verif.Spec.Location
import Verif.Spec.Logging
import Verif.Spec.Lru
import Verif.Spec.LuaBind
import Verif.Spec.Modifiers
import Verif.Spec.MoreCounters
import Verif.Spec.NetResolver
import Verif.Spec.NetnsEvents
import Verif.Spec.NetnsWatch
import Verif.Spec.Odoh
import Verif.Spec.Pipeline
import Verif.Spec.PipelineTimed
import Verif.Spec.Prefetch
import Verif.Spec.Privacy
import Verif.Spec.PrivacyConfig
import Verif.Spec.Probes
import Verif.Spec.Races
import Verif.Spec.Rate
import Verif.Spec.Redis
import Verif.Spec.RedisFlush
import Verif.Spec.ReplyConfig
import Verif.Spec.Route
import Verif.Spec.Settings
import Verif.Spec.Shared
import Verif.Spec.Shuffle
import Verif.Spec.Split
import Verif.Spec.SplitConfig
import Verif.Spec.Static
import Verif.Spec.Timed
import Verif.Spec.TimedConfig
import Verif.Spec.Upkeep
import Verif.Spec.Validate
import Verif.Spec.Validated
import Verif.Spec.Xsocket
