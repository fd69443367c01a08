{
 "claims": [
  {
   "property": "C01",
   "status": "proved",
   "theorems": [
    "Pyzim.SpaceAllocator.C01_allocate_fresh",
    "Pyzim.SpaceAllocator.C01_used_below_end",
    "Pyzim.SpaceAllocator.C01_live_ranges_disjoint"
   ],
   "note": "Whole allocator modelled; history relation over arbitrary allocate/mark_free sequences."
  },
  {
   "property": "C02",
   "status": "proved",
   "theorems": [
    "Pyzim.SpaceAllocator.C02_partition",
    "Pyzim.SpaceAllocator.C02_blocks_merged",
    "Pyzim.SpaceAllocator.C02_mark_free_union",
    "Pyzim.SpaceAllocator.C02_client_conservation"
   ],
   "note": "Partition of the bytes below file end, merged sorted blocks, mark_free adds exactly the given range."
  },
  {
   "property": "C03",
   "status": "proved",
   "theorems": [
    "Pyzim.SpaceAllocator.C03_best_fit",
    "Pyzim.SpaceAllocator.C03_minimal_growth",
    "Pyzim.SpaceAllocator.C03_file_end_monotone"
   ],
   "note": "Best fit, minimal growth and monotone file end on every reachable state."
  },
  {
   "property": "C04",
   "status": "proved",
   "theorems": [
    "Pyzim.PointerList.C04_write_read",
    "Pyzim.PointerList.C04_no_truncation",
    "Pyzim.PointerList.C04_read_write",
    "Pyzim.PointerList.C04_bad_length",
    "Pyzim.PointerList.C04_from_file"
   ],
   "note": "Round trip in both directions, rejected lengths, no silent truncation."
  },
  {
   "property": "C05",
   "status": "proved",
   "theorems": [
    "Pyzim.PointerList.C05_sorted_invariant",
    "Pyzim.PointerList.C05_check_sorted",
    "Pyzim.PointerList.C05_add",
    "Pyzim.PointerList.C05_remove"
   ],
   "note": "Sortedness is an invariant of all add/remove histories; effect of add and remove; check_sorted decides sortedness."
  },
  {
   "property": "C06",
   "status": "proved",
   "theorems": [
    "Pyzim.PointerList.C06_has",
    "Pyzim.PointerList.C06_get_found",
    "Pyzim.PointerList.C06_get_missing",
    "Pyzim.PointerList.C06_find_first_greater_equals"
   ],
   "note": "Membership, lookup and insertion point on every sorted list."
  },
  {
   "property": "C07",
   "status": "proved",
   "theorems": [
    "Pyzim.PointerList.C07_mass_update"
   ],
   "note": "mass_update for every range and offset, with error case."
  },
  {
   "property": "C08",
   "status": "proved",
   "theorems": [
    "Pyzim.OnDiskList.C08_same_pointers",
    "Pyzim.OnDiskList.C08_same_lookups",
    "Pyzim.OnDiskList.C08_same_iteration",
    "Pyzim.OnDiskList.C08_immutable"
   ],
   "note": "Pointers, lookups and iteration agree; every modification raises. The methods for which agreement fails are C55."
  },
  {
   "property": "C09",
   "status": "proved",
   "theorems": [
    "Pyzim.MimeTypeList.C09_round_trip",
    "Pyzim.MimeTypeList.C09_injective",
    "Pyzim.MimeTypeList.C09_empty_list_size_wrong"
   ],
   "note": "All non-empty lists of non-empty NUL-free mimetypes. The empty list is written with two bytes but sized as one: C09_empty_list_size_wrong."
  },
  {
   "property": "C10",
   "status": "proved",
   "theorems": [
    "Pyzim.MimeTypeList.C10_ids_stable",
    "Pyzim.MimeTypeList.C10_register",
    "Pyzim.MimeTypeList.C10_lookup",
    "Pyzim.MimeTypeList.C10_ids_unique",
    "Pyzim.MimeTypeList.C10_immutable"
   ],
   "note": "All histories of register/get_index."
  },
  {
   "property": "C11",
   "status": "proved",
   "theorems": [
    "Pyzim.Header.C11_length",
    "Pyzim.Header.C11_write_read",
    "Pyzim.Header.C11_no_truncation",
    "Pyzim.Header.C11_read_write",
    "Pyzim.Header.C11_bad_length",
    "Pyzim.Header.C11_injective"
   ],
   "note": "Round trip in both directions for every header and every 80 byte string."
  },
  {
   "property": "C12",
   "status": "proved",
   "theorems": [
    "Pyzim.Header.C12_accepted",
    "Pyzim.Header.C12_not_a_zim",
    "Pyzim.Header.C12_incompatible",
    "Pyzim.Header.C12_page_getter",
    "Pyzim.Header.C12_page_set_get"
   ],
   "note": "Decision and sentinel for every header."
  },
  {
   "property": "C13",
   "status": "proved",
   "theorems": [
    "Pyzim.Header.C13_negative",
    "Pyzim.Header.C13_immutable",
    "Pyzim.Header.C13_set",
    "Pyzim.Header.C13_magic_uuid",
    "Pyzim.Header.C13_page_setters",
    "Pyzim.Header.C13_clean_means_unchanged"
   ],
   "note": "Every setter, plus histories of setter calls."
  },
  {
   "property": "C14",
   "status": "proved",
   "theorems": [
    "Pyzim.Entry.C14_round_trip",
    "Pyzim.Entry.C14_read_write",
    "Pyzim.Entry.C14_no_truncation"
   ],
   "note": "Both directions, any surrounding file content."
  },
  {
   "property": "C15",
   "status": "proved",
   "theorems": [
    "Pyzim.Entry.C15_round_trip",
    "Pyzim.Entry.C15_kinds",
    "Pyzim.Entry.C15_confused_if_mimetype_ffff"
   ],
   "note": "Both directions; kinds decided by mimetype id 0xffff; C15_confused_if_mimetype_ffff shows why the proviso is needed."
  },
  {
   "property": "C16",
   "status": "proved",
   "theorems": [
    "Pyzim.Entry.C16_title",
    "Pyzim.Entry.C16_set_url",
    "Pyzim.Entry.C16_set_title",
    "Pyzim.Entry.C16_set_namespace",
    "Pyzim.Entry.C16_histories",
    "Pyzim.Entry.C16_read_good",
    "Pyzim.Entry.C16_full_url",
    "Pyzim.Entry.C16_set_full_url",
    "Pyzim.Entry.C16_set_full_url_not_atomic"
   ],
   "note": "Setters characterised, histories by induction. Finding: the full_url setter is not atomic (C16_set_full_url_not_atomic)."
  },
  {
   "property": "C17",
   "status": "proved",
   "theorems": [
    "Pyzim.Entry.C17_resolves",
    "Pyzim.Entry.C17_only_content",
    "Pyzim.Entry.C17_terminates",
    "Pyzim.Entry.C17_total",
    "Pyzim.Entry.C17_cycle_diverges"
   ],
   "note": "Correctness, termination bound on acyclic archives by pigeonhole, divergence exactly on cycles."
  },
  {
   "property": "C18",
   "status": "proved",
   "theorems": [
    "Pyzim.Cluster.C18_parse_generate",
    "Pyzim.Cluster.C18_generate_parse",
    "Pyzim.Cluster.C18_parse_all",
    "Pyzim.Cluster.C18_unknown_not_supported"
   ],
   "note": "All bytes and types; UNKNOWN has no valid byte (C18_unknown_not_supported)."
  },
  {
   "property": "C19",
   "status": "proved",
   "theorems": [
    "Pyzim.MCluster.C19_round_trip",
    "Pyzim.MCluster.C19_attributes",
    "Pyzim.MCluster.C19_write_succeeds",
    "Pyzim.MCluster.C19_disk_size"
   ],
   "note": "Any history of modifications, any lossless compressor/decompressor pair (Lossless), any file position and following data, any kind of cluster reading it, any use before. UNKNOWN compression excluded."
  },
  {
   "property": "C20",
   "status": "proved",
   "theorems": [
    "Pyzim.MCluster.C20_width",
    "Pyzim.MCluster.C20_offsets_fit",
    "Pyzim.MCluster.C20_never_truncated"
   ],
   "note": "Exact rule at the 4 GiB boundary; packing never fails unless the width is forced, and then it raises instead of truncating."
  },
  {
   "property": "C21",
   "status": "proved",
   "theorems": [
    "Pyzim.Cluster.C21_read_blob",
    "Pyzim.Cluster.C21_read_whole_blob",
    "Pyzim.Cluster.C21_no_such_blob",
    "Pyzim.Cluster.C21_sizes",
    "Pyzim.Cluster.C21_offsets",
    "Pyzim.MCluster.C21_modified_read_blob",
    "Pyzim.MCluster.C21_modified_no_such_blob"
   ],
   "note": "All three readable kinds after any call history, and modified clusters after any history of set/append/empty/force/reset/read."
  },
  {
   "property": "C22",
   "status": "proved",
   "theorems": [
    "Pyzim.Cluster.C22_iter_read_blob",
    "Pyzim.Cluster.C22_iter_equals_read",
    "Pyzim.MCluster.C22_modified_iter_read_blob"
   ],
   "note": "As C21, for abandoned iterations too. Finding: the blob of an EntryBlobSource ignores the requested size (C52_entry_ignores_size), hence the proviso."
  },
  {
   "property": "C23",
   "status": "proved",
   "theorems": [
    "Pyzim.MCluster.C23_shows",
    "Pyzim.MCluster.C23_modification_accepted",
    "Pyzim.MCluster.C23_append_index",
    "Pyzim.MCluster.C23_offsets",
    "Pyzim.MCluster.C23_offset_needs_infobyte"
   ],
   "note": "Induction over all histories of set/append/empty (accepted or refused), forcing, resetting, reading and writing. Finding: get_offset before the information byte has been read raises RuntimeError (C23_offset_needs_infobyte)."
  },
  {
   "property": "C24",
   "status": "proved",
   "theorems": [
    "Pyzim.DReader.C24_reader_faithful",
    "Pyzim.DReader.C24_read_n_exact",
    "Pyzim.DReader.C24_end_for_ever",
    "Pyzim.DReader.C24_iter_read_all",
    "Pyzim.DReader.C24_read_loop_terminates",
    "Pyzim.C24_read_zero_raises"
   ],
   "note": "Any decompressor meeting the streaming contract, any history of calls with positive sizes. Finding: read(0) raises (C24_read_zero_raises). On streams without a known end (passthrough) running into the end of the file raises IOError; ReadSpec says exactly when."
  },
  {
   "property": "C25",
   "status": "proved",
   "theorems": [
    "Pyzim.C25_passthrough_streams",
    "Pyzim.C25_passthrough_limit",
    "Pyzim.C25_zlib_streams",
    "Pyzim.C25_zlib_closed",
    "Pyzim.C25_zlib_limit",
    "Pyzim.C25_zstd_streams",
    "Pyzim.C25_zstd_closed",
    "Pyzim.C25_zstd_limit",
    "Pyzim.C25_fed_in_order",
    "Pyzim.C25_zlib_read_zero_loses_data",
    "Pyzim.C25_zstd_empty_end_raises"
   ],
   "note": "Contracts of the external zlib/zstandard objects are hypotheses, shown satisfiable by toy objects. Findings: read(0) loses data on zlib; a zstandard end marker arriving without data is not noticed."
  },
  {
   "property": "C26",
   "status": "proved",
   "theorems": [
    "Pyzim.Simple.C26_simple",
    "Pyzim.ByMimetype.C26_by_mimetype"
   ],
   "note": "Archive reduced to a log of written clusters and entries (Spec/Strategy.lean); compressor assumed to work and to be lossless, sources to deliver; total size below 2^64."
  },
  {
   "property": "C27",
   "status": "proved",
   "theorems": [
    "Pyzim.Simple.C27_distribution",
    "Pyzim.Simple.C27_bound",
    "Pyzim.Strategy.C27_limit_exceeded"
   ],
   "note": "The limit itself can be exceeded by one offset (C27_limit_exceeded)."
  },
  {
   "property": "C28",
   "status": "proved",
   "theorems": [
    "Pyzim.ByMimetype.C28_by_mimetype"
   ],
   "note": "Grouping is by mimetype; sub-strategies are simple ones."
  },
  {
   "property": "C29",
   "status": "proved",
   "theorems": [
    "Pyzim.Counter.C29_round_trip",
    "Pyzim.Counter.C29_counts",
    "Pyzim.Counter.C29_reparse",
    "Pyzim.Counter.C29_shape_needed"
   ],
   "note": "For mimetypes in which every \";\" is followed by a space and which do not start with one; C29_shape_needed shows that others do not round trip."
  },
  {
   "property": "C30",
   "status": "partial",
   "theorems": [
    "Pyzim.Counter.C30_history_partial",
    "Pyzim.Counter.C30_never_negative_partial",
    "Pyzim.Counter.C30_false"
   ],
   "note": "False of the code in general (C30_false). Proved for histories in which a rewritten entry does not become or cease to be a content entry of namespace C and a cached object did not change its mimetype."
  },
  {
   "property": "C31",
   "status": "partial",
   "theorems": [
    "Pyzim.Zim.C31_redirects",
    "Pyzim.Zim.C31_any_redirects",
    "Pyzim.Zim.C31_terminates",
    "Pyzim.Zim.C31_buffered",
    "Pyzim.Zim.C31_replacing_false"
   ],
   "note": "C31_redirects: full characterisation of applying buffered redirects with new, pairwise different sources (which are written, where they lead, when UnresolvedRedirect is raised, termination). C31_any_redirects: for arbitrary sources, success means every source exists and every target was resolvable. C31_terminates: the loop ends. Missing: that a redirect replacing an existing entry leads to its target; that is false of the code (C31_replacing_false)."
  },
  {
   "property": "C32",
   "status": "partial",
   "theorems": [
    "Pyzim.Zim.C32_buffered_setting",
    "Pyzim.Zim.C32_partial",
    "Pyzim.Zim.C32_deferred_partial",
    "Pyzim.Zim.C32_none_false",
    "Pyzim.Zim.C32_missing_fails",
    "Pyzim.Zim.C32_missing_wins"
   ],
   "note": "C32_partial: any number of settings to existing pages, then possibly None. C32_deferred_partial: a page added after the setting. C32_buffered_setting: the buffered setting takes effect in any state. The full statement C32Full is false of the code (C32_none_false); also C32_missing_fails and C32_missing_wins."
  },
  {
   "property": "C33",
   "status": "proved",
   "theorems": [
    "Pyzim.Zim.C33_map",
    "Pyzim.Zim.C33_one_catalogue",
    "Pyzim.Zim.C33_rename_onto_existing"
   ],
   "note": "All histories of successful calls; an entry must not be renamed to the url of another entry (C33_rename_onto_existing shows what happens then). Archives of version 6.3 or later (no list of all titles). What is done to the blob of a removed entry is a parameter that must leave the entries alone."
  },
  {
   "property": "C34",
   "status": "partial",
   "theorems": [
    "Pyzim.Zim.C34_add_partial",
    "Pyzim.Zim.C34_write_other_partial",
    "Pyzim.Zim.C34_write_same_size_partial",
    "Pyzim.Zim.C34_rename_partial",
    "Pyzim.Zim.C34_self_partial",
    "Pyzim.Zim.C34_remove_partial",
    "Pyzim.Zim.C34_rewrite_false"
   ],
   "note": "Proved for adding, for removing, for rewriting with the same size, for redirects not leading to the written entry and for renames that change the position. Missing because false: redirects to an entry that is rewritten with another size (C34_rewrite_false)."
  },
  {
   "property": "C35",
   "status": "partial",
   "theorems": [
    "Pyzim.Zim.C35_write_partial",
    "Pyzim.Zim.C35_write_same_size_partial",
    "Pyzim.Zim.C35_remove_partial",
    "Pyzim.Zim.C35_add_false",
    "Pyzim.Zim.C35_rewrite_false"
   ],
   "note": "Proved for removing, for rewriting with the same size, and for writing if the entry does not come to lie immediately before the main page. Missing because false: C35_add_false, C35_rewrite_false."
  },
  {
   "property": "C36",
   "status": "partial",
   "theorems": [
    "Pyzim.Zim.C36_articles_partial",
    "Pyzim.Zim.C36_false"
   ],
   "note": "Proved for all histories in which only articles (and redirects that are articles) are removed. Missing because false: C36_false."
  },
  {
   "property": "C37",
   "status": "proved",
   "theorems": [
    "Pyzim.Archive.C37_layout",
    "Pyzim.Archive.C37_new",
    "Pyzim.Archive.C37_new_succeeds",
    "Pyzim.Archive.C37_other_reserve_false",
    "Pyzim.Archive.C37_unreserved_header"
   ],
   "note": "C37_layout: for every history of an archive whose file is laid out correctly, with or without reserved space; C37_new: for every history of a new archive with reserved space. The buffered operations, the compression strategies and the content of the article title list may write any clusters and entries. C37_other_reserve_false: if the reserved space is not the one the file was created with (e.g. the default policy for a file of another program), adding a mimetype overwrites clusters or entries. C37_unreserved_header: without reserved space a new archive marks the first byte of its header as free."
  },
  {
   "property": "C38",
   "status": "proved",
   "theorems": [
    "Pyzim.Zim.C38_chunked",
    "Pyzim.Zim.C38_short_file_hangs",
    "Pyzim.Zim.C38_update",
    "Pyzim.Zim.C38_flush",
    "Pyzim.Zim.C38_clean",
    "Pyzim.Archive.C38_unnoticed_rewrite"
   ],
   "note": "For every hash function computed incrementally, chunk size and partial reads, and whatever happens to entries and clusters during the flush. C38_short_file_hangs: calculate_checksum never ends in a file that is shorter than the checksum position. C38_unnoticed_rewrite: after an entry that is not an article is rewritten in place with the same size, flush does not write and the checksum is wrong."
  },
  {
   "property": "C39",
   "status": "proved",
   "theorems": [
    "Pyzim.Archive.C39_open",
    "Pyzim.Archive.C39_flush_open",
    "Pyzim.Archive.C39_magic_unchecked"
   ],
   "note": "For every history of a new archive (C39_flush_open) and every correctly laid out archive (C39_open), opened for reading or writing; reading the content of the article title list is a parameter. C39_magic_unchecked: the magic number and version are not checked when opening."
  },
  {
   "property": "C40",
   "status": "proved",
   "theorems": [
    "Pyzim.LastCache.C40_bounded",
    "Pyzim.LastCache.C40_get_last_pushed",
    "Pyzim.LastCache.C40_keeps_most_recent",
    "Pyzim.LastCache.C40_evicts_least_recent",
    "Pyzim.LastCache.C40_leave_callback",
    "Pyzim.LastCache.C40_raises",
    "Pyzim.LastCache.C40_size_zero_raises"
   ],
   "note": "For max_size >= 1 and with a leave callback. Size zero raises on the first push (C40_size_zero_raises)."
  },
  {
   "property": "C41",
   "status": "proved",
   "theorems": [
    "Pyzim.TopCache.C41_bounded",
    "Pyzim.TopCache.C41_get_last_pushed",
    "Pyzim.TopCache.C41_displaced_by_more_accessed",
    "Pyzim.TopCache.C41_leave_callback",
    "Pyzim.TopCache.C41_raises"
   ],
   "note": ""
  },
  {
   "property": "C42",
   "status": "partial",
   "theorems": [
    "Pyzim.HybridCache.C42_get_pushed_partial",
    "Pyzim.HybridCache.C42_get_last_pushed_partial",
    "Pyzim.HybridCache.C42_bounded_partial",
    "Pyzim.HybridCache.C42_raises_partial",
    "Pyzim.HybridCache.C42_outdated_value",
    "Pyzim.HybridCache.C42_size_exceeded",
    "Pyzim.HybridCache.C42_size_zero_raises"
   ],
   "note": "False of the code: stale values (C42_outdated_value) and both caches use last_cache_size (C42_size_exceeded). Proved: returned values were pushed since the last removal, bound 2*last_cache_size, last pushed value if the pushes of a key agree."
  },
  {
   "property": "C43",
   "status": "proved",
   "theorems": [
    "Pyzim.C43_entries",
    "Pyzim.C43_entries_any_cache",
    "Pyzim.C43_clusters"
   ],
   "note": "All four cache kinds with sizes of at least one; entries and clusters of a read-only archive, processors not installed."
  },
  {
   "property": "C44",
   "status": "proved",
   "theorems": [
    "Pyzim.C44_same_bytes",
    "Pyzim.C44_one_at_a_time",
    "Pyzim.C44_turns",
    "Pyzim.C44_can_finish",
    "Pyzim.C44_nested_deadlock",
    "Pyzim.C44_seek_first",
    "Pyzim.C44_readAt_positioned",
    "Pyzim.C44_readInfobyte_positioned",
    "Pyzim.C44_readAt_alone",
    "Pyzim.C44_positions",
    "Pyzim.C44_loop_body_deadlock"
   ],
   "note": "C44_same_bytes: any number of threads, any schedule, any data-dependent blocks that seek before they read; C44_positions spells it out for reads of given positions; C44_turns: with writers too, every schedule is equivalent to some order of whole blocks; C44_can_finish: no deadlock unless a block acquires the file again. C44_nested_deadlock, C44_loop_body_deadlock: the lock is not re-entrant, so using the archive in the body of a loop over a generator which holds it (iter_read_blob, iter_blob_offsets) never returns. Closing the archive meanwhile is not modelled."
  },
  {
   "property": "C45",
   "status": "proved",
   "theorems": [
    "Pyzim.Zim.C45_keys",
    "Pyzim.Zim.C45_none",
    "Pyzim.Zim.C45_none_roomy",
    "Pyzim.Zim.C45_value",
    "Pyzim.Zim.C45_flushes",
    "Pyzim.Zim.C45_dict"
   ],
   "note": "The statement was amended for redirects that lead nowhere."
  },
  {
   "property": "C46",
   "status": "proved",
   "theorems": [
    "Pyzim.IterByCluster.C46_iter_by_cluster",
    "Pyzim.IterByCluster.C46_every_entry_once"
   ],
   "note": "Statement amended: without redirects the generator ends with KeyError (finding). Entries must be well-kinded as guaranteed by parsing (C15)."
  },
  {
   "property": "C47",
   "status": "proved",
   "theorems": [
    "Pyzim.TitleStartSearch.C47_estimate",
    "Pyzim.TitleStartSearch.C47_range",
    "Pyzim.TitleStartSearch.C47_iter",
    "Pyzim.TitleStartSearch.C47_iter_in_range",
    "Pyzim.TitleStartSearch.C47_last_character",
    "Pyzim.TitleStartSearch.C47_nonarticles_fails"
   ],
   "note": "For searches among articles; titles must not be empty. Finding: searches among all entries can fail with AssertionError (C47_nonarticles_fails). XapianSearch is not modelled."
  },
  {
   "property": "C48",
   "status": "proved",
   "theorems": [
    "Pyzim.Header.C48_header",
    "Pyzim.MimeTypeList.C48_mimetypelist",
    "Pyzim.PointerList.C48_pointerlist",
    "Pyzim.PointerList.C48_mass_update_ignores_immutability",
    "Pyzim.Entry.C48_entry",
    "Pyzim.Entry.C48_entry_history",
    "Pyzim.MCluster.C48_cluster",
    "Pyzim.MCluster.C48_cluster_settings_ignore_immutability",
    "Pyzim.Creator.C48_archive"
   ],
   "note": "Findings: mass_update of pointer lists and the cluster settings (compression, is_extended) do not check mutability (C48_mass_update_ignores_immutability, C48_cluster_settings_ignore_immutability); they are excluded from the calls. C48_archive: add_item, set_metadata and flush of a closed archive and of one opened for reading."
  },
  {
   "property": "C49",
   "status": "proved",
   "theorems": [
    "Pyzim.Header.C49_header",
    "Pyzim.MimeTypeList.C49_mimetypelist",
    "Pyzim.PointerList.C49_pointerlist",
    "Pyzim.PointerList.C49_mass_update",
    "Pyzim.Entry.C49_entry",
    "Pyzim.Entry.C49_entry_clean",
    "Pyzim.MCluster.C49_extended_not_tracked",
    "Pyzim.MCluster.C49_cluster",
    "Pyzim.ModHeap.C49_dirty",
    "Pyzim.ModHeap.C49_old_size",
    "Pyzim.ModHeap.C49_detach",
    "Pyzim.ModHeap.C49_cycle"
   ],
   "note": "Finding: assigning is_extended is not tracked (C49_extended_not_tracked); cycles of components end in RecursionError (C49_cycle)."
  },
  {
   "property": "C50",
   "status": "proved",
   "theorems": [
    "Pyzim.Bindable.C50_bind",
    "Pyzim.Bindable.C50_history",
    "Pyzim.Bindable.C50_last_bind",
    "Pyzim.BoundWrapper.C50_wrapper"
   ],
   "note": ""
  },
  {
   "property": "C51",
   "status": "proved",
   "theorems": [
    "Pyzim.C51_read_until_zero",
    "Pyzim.C51_read_until_zero_short",
    "Pyzim.C51_read_until_zero_total",
    "Pyzim.C51_read_n_bytes",
    "Pyzim.C51_read_n_bytes_any"
   ],
   "note": "Any reader with short reads; read_until_zero returns iff a zero byte is left."
  },
  {
   "property": "C52",
   "status": "proved",
   "theorems": [
    "Pyzim.Blob.C52_read_sequence",
    "Pyzim.Blob.C52_read_everything",
    "Pyzim.Blob.C52_size",
    "Pyzim.Blob.C52_respects_size",
    "Pyzim.Blob.C52_entry_ignores_size",
    "Pyzim.Blob.C52_pieces_complete"
   ],
   "note": "All four sources, any sequence of positive read sizes. Finding: EntryBlob ignores the size."
  },
  {
   "property": "C53",
   "status": "proved",
   "theorems": [
    "Pyzim.Zim.C53_new",
    "Pyzim.Zim.C53_replace",
    "Pyzim.Zim.C53_history",
    "Pyzim.Zim.C53_new_cluster_writes",
    "Pyzim.Zim.C53_stored_cluster_writes",
    "Pyzim.Zim.C53_new_cluster_readable"
   ],
   "note": "For cluster objects that keep the contract ClusterOps.Writes; C53_new_cluster_writes: clusters made by new_cluster do. The statement was amended: a number given for a new cluster is ignored."
  },
  {
   "property": "C54",
   "status": "proved",
   "theorems": [
    "Pyzim.Item.C54_new",
    "Pyzim.Item.C54_setters",
    "Pyzim.Item.C54_to_entry",
    "Pyzim.Item.C54_round_trip",
    "Pyzim.Item.C54_empty_title",
    "Pyzim.Item.C54_article_namespace"
   ],
   "note": "An explicit title must not be empty (C54_empty_title), articles must be in namespace C (C54_article_namespace), fewer than 65534 mimetypes."
  },
  {
   "property": "C55",
   "status": "partial",
   "theorems": [
    "Pyzim.OnDiskList.C55_on_disk_inherited_methods_broken",
    "Pyzim.OnDiskList.C55_empty_on_disk_partial"
   ],
   "note": "The code violates it: C55_on_disk_inherited_methods_broken proves the negation with a witness; only the empty list agrees."
  },
  {
   "property": "C56",
   "status": "partial",
   "theorems": [
    "Pyzim.Cluster.C56_read_blob_beyond_end_partial",
    "Pyzim.Cluster.C56_iter_read_blob_memory_partial",
    "Pyzim.Cluster.C56_iter_read_blob_leaks",
    "Pyzim.Cluster.C56_read_blob_beyond_file_raises"
   ],
   "note": "read_blob never returns a byte but may raise; iter_read_blob yields the bytes that follow the blob. Negations proved with witnesses."
  },
  {
   "property": "C57",
   "status": "proved",
   "theorems": [
    "Pyzim.Cluster.C57_total_size_uncompressed",
    "Pyzim.Cluster.C57_total_size_compressed",
    "Pyzim.Cluster.C57_zlib_occupies",
    "Pyzim.Cluster.C57_zstd_occupies"
   ],
   "note": "Uncompressed clusters, and compressed ones under the contract that the decompressor reports surplus input exactly; shown for both wrappers."
  },
  {
   "property": "C58",
   "status": "partial",
   "theorems": [
    "Pyzim.MCluster.C58_first_removal_partial",
    "Pyzim.MCluster.C58_only_removals_partial",
    "Pyzim.MCluster.C58_set_undoes_removal",
    "Pyzim.MCluster.C58_second_removal_leaves_blob",
    "Pyzim.MCluster.C58_removal_beyond_end_accepted"
   ],
   "note": "Proved: one removal after any other modifications; any sequence of removals alone. Negations with witnesses: set after removal, second removal after set, removal beyond the end."
  },
  {
   "property": "C59",
   "status": "partial",
   "theorems": [
    "Pyzim.TopCache.C59_violated",
    "Pyzim.TopCache.C59_displaced_less_accessed_partial"
   ],
   "note": "False of the code: C59_violated. Proved: the displaced key was accessed less often than the new one."
  },
  {
   "property": "C60",
   "status": "proved",
   "theorems": [
    "Pyzim.Counter.C60_reinit",
    "Pyzim.Counter.C60_load",
    "Pyzim.Counter.C60_load_only",
    "Pyzim.Counter.C60_ignore"
   ],
   "note": ""
  },
  {
   "property": "C61",
   "status": "proved",
   "theorems": [
    "Pyzim.Counter.C61_calls",
    "Pyzim.Counter.C61_never_negative",
    "Pyzim.Counter.C61_dirty"
   ],
   "note": ""
  },
  {
   "property": "C62",
   "status": "partial",
   "theorems": [
    "Pyzim.TitleStartSearch.C62_first_page_partial",
    "Pyzim.TitleStartSearch.C62_false"
   ],
   "note": "Holds for the first page of 20 only; numbers restart on every page (C62_false)."
  },
  {
   "property": "C63",
   "status": "proved",
   "theorems": [
    "Pyzim.Zim.C63_add_succeeds",
    "Pyzim.Zim.C63_rewrite_succeeds"
   ],
   "note": ""
  },
  {
   "property": "C64",
   "status": "partial",
   "theorems": [
    "Pyzim.Zim.C64_remove_partial",
    "Pyzim.Zim.C64_first_fails",
    "Pyzim.Zim.C64_false",
    "Pyzim.Zim.C64_cascade_fails"
   ],
   "note": "Proved for articles to which no redirect leads. Missing because false: C64_first_fails (always, for the first entry with a redirect to it), C64_cascade_fails, C64_false."
  },
  {
   "property": "C65",
   "status": "partial",
   "theorems": [
    "Pyzim.Zim.C65_new_partial",
    "Pyzim.Zim.C65_same_size_partial",
    "Pyzim.Zim.C65_false"
   ],
   "note": "Proved for new entries and for unchanged sizes. Missing because false: C65_false."
  },
  {
   "property": "C66",
   "status": "proved",
   "theorems": [
    "Pyzim.Zim.C66_write_frame",
    "Pyzim.Zim.C66_remove_frame"
   ],
   "note": ""
  },
  {
   "property": "C67",
   "status": "proved",
   "theorems": [
    "Pyzim.Zim.C67_resolves",
    "Pyzim.Zim.C67_not_found",
    "Pyzim.Zim.C67_hangs",
    "Pyzim.Zim.C67_turns",
    "Pyzim.Zim.C67_circle"
   ],
   "note": "C67_circle: circles of redirects can be made with successful calls."
  },
  {
   "property": "C68",
   "status": "partial",
   "theorems": [
    "Pyzim.Zim.C68_remove_partial",
    "Pyzim.Zim.C68_false",
    "Pyzim.Zim.C68_next_index"
   ],
   "note": "C68_false: after removing the first of three clusters, writing the last one again changes the pointer of the removed one, and the last index denotes freed space. C68_next_index: after removing the last cluster the next new one does not get the next free index."
  },
  {
   "property": "C69",
   "status": "proved",
   "theorems": [
    "Pyzim.TransInput.C69_translate",
    "Pyzim.TransInput.C69_handlers",
    "Pyzim.TransInput.C69_no_redirects",
    "Pyzim.TransInput.C69_no_mainpage"
   ],
   "note": "Redirects are added after all items. What is modelled of the output are the calls made on it (C89 says what these calls lead to). C69_handlers: the same for any handlers of a subclass. C69_no_redirects: without any redirect KeyError is raised after everything has been added, and nothing is flushed. C69_no_mainpage: without a main page nothing is translated. The main page is set by its url without namespace, so it must be in namespace C."
  },
  {
   "property": "C70",
   "status": "proved",
   "theorems": [
    "Pyzim.Creator.C70_items_survive",
    "Pyzim.Creator.C70_after_flush"
   ],
   "note": "C70_items_survive, C70_after_flush. From creating the archive on; without processors, caches and the counter (counter=\"ignore\"), with at least 2 bytes reserved for mimetypes, fewer than 65534 mimetypes. The article title list is really stored as the content of its entry and read from there when opening. Calls of the history are assumed to succeed (they fail e.g. when a mimetype list does not fit)."
  },
  {
   "property": "C71",
   "status": "partial",
   "theorems": [
    "Pyzim.Creator.C71_last_added_partial",
    "Pyzim.Creator.C71_full_fails"
   ],
   "note": "Proved if there is a flush between adding items with the same url (C71_last_added_partial). False otherwise: C71_full_fails, an item that is not to be compressed wins over a later one that is."
  },
  {
   "property": "C72",
   "status": "proved",
   "theorems": [
    "Pyzim.Creator.C72_set",
    "Pyzim.Creator.C72_reopened",
    "Pyzim.Creator.C72_live",
    "Pyzim.Creator.C72_refused",
    "Pyzim.Creator.C72_keys_pending"
   ],
   "note": "C72_set, C72_reopened, C72_live, C72_refused. As for C70, calls of the history are assumed to succeed; in the writable archive \"if it returns, it returns the value\". Finding: get_metadata_keys does not flush, so keys set since the last flush are missing (C72_keys_pending)."
  },
  {
   "property": "C73",
   "status": "proved",
   "theorems": [
    "Pyzim.Creator.C73_opened",
    "Pyzim.Creator.C73_live",
    "Pyzim.Zim.C73_range",
    "Pyzim.Zim.C73_redirect"
   ],
   "note": "C73_opened, C73_live (in the writable archive if get_size returns: the cluster is measured when it is opened), C73_range, C73_redirect. Ranges starting behind the content: see C56."
  },
  {
   "property": "C74",
   "status": "partial",
   "theorems": [
    "Pyzim.Zim.C74_open_end_raises",
    "Pyzim.Zim.C74_to_end_partial",
    "Pyzim.Creator.C74_full_fails"
   ],
   "note": "False of the code: a start without an end always raises TypeError (C74_open_end_raises, C74_full_fails). C74_to_end_partial: works if the end is given."
  },
  {
   "property": "C75",
   "status": "partial",
   "theorems": [
    "Pyzim.Creator.C75_opened_partial",
    "Pyzim.Creator.C75_live_partial",
    "Pyzim.Creator.C75_content_partial",
    "Pyzim.Creator.C75_full_fails",
    "Pyzim.Creator.C75_flushed_fails",
    "Pyzim.Creator.C75_flushed",
    "Pyzim.Creator.C75_add_redirect"
   ],
   "note": "Proved if an item with the url of the target was added at most once (C75_opened_partial, C75_live_partial, C75_content_partial), and for redirects added while there are unsaved changes (C75_flushed; C70 shows that all redirects are found). False of the code otherwise: C75_full_fails, C75_flushed_fails."
  },
  {
   "property": "C76",
   "status": "partial",
   "theorems": [
    "Pyzim.Creator.C76_unflushed_partial",
    "Pyzim.Creator.C76_redirects_fail",
    "Pyzim.Creator.C76_replacing_fails"
   ],
   "note": "C76_unflushed_partial: for crash points between calls; items and redirects are found as before, if no item was replaced. False of the code otherwise: C76_redirects_fail (redirects lead elsewhere), C76_replacing_fails (neither the old nor the new content can be read). Missing: crash points inside of a call (see C84 for those inside of flush, C87 for writes that are lost)."
  },
  {
   "property": "C77",
   "status": "proved",
   "theorems": [
    "Pyzim.Creator.C77_set_content",
    "Pyzim.Creator.C77_only_items",
    "Pyzim.Creator.C77_unsaved_changes",
    "Pyzim.Creator.C77_live",
    "Pyzim.Creator.C77_refused"
   ],
   "note": "For calls that succeed. C77_set_content: after the next flush; C77_live: at once; C77_unsaved_changes: other items of earlier flushes while there are unsaved changes; C77_only_items, C77_refused. Assumes that compressed data knows its end (Sealed) and that the item was flushed before. The histories of C70 and C72 to C76 have this call too."
  },
  {
   "property": "C78",
   "status": "proved",
   "theorems": [
    "Pyzim.Counting.C78_counter",
    "Pyzim.Counting.C78_counts",
    "Pyzim.Counting.C78_after_flush",
    "Pyzim.Counting.C78_redirect_over_item"
   ],
   "note": "C78_counter, C78_counts, C78_after_flush. As for C70, calls of the history are assumed to succeed; both ways of opening (parsing the entry, counting anew if that fails) are covered. The url of a redirect has to differ from those of the items: C78_redirect_over_item, an item that is replaced by a redirect is still counted."
  },
  {
   "property": "C79",
   "status": "proved",
   "theorems": [
    "Pyzim.Creator.C79_close_saves",
    "Pyzim.Creator.C79_close_again",
    "Pyzim.Creator.C79_with",
    "Pyzim.Creator.C79_with_fails",
    "Pyzim.Creator.C79_with_closed",
    "Pyzim.Creator.C79_refuses",
    "Pyzim.Counting.C79_close_saves_counter",
    "Pyzim.Counting.C79_with_counter"
   ],
   "note": "C79_close_saves, C79_close_again, C79_with, C79_with_fails, C79_with_closed, C79_refuses; with the default policy C79_close_saves_counter, C79_with_counter. As for C70, calls of the history are assumed to succeed, and closing too. Reading from a closed archive is not covered (entries in the cache are still delivered)."
  },
  {
   "property": "C80",
   "status": "partial",
   "theorems": [
    "Pyzim.Opening.C80_modes_partial",
    "Pyzim.Opening.C80_exclusive_partial",
    "Pyzim.Opening.C80_exclusive_fails",
    "Pyzim.Opening.C80_offset_fails",
    "Pyzim.Opening.C80_offset_ignored"
   ],
   "note": "C80_modes_partial; C80_exclusive_partial if no other process acts meanwhile. False of the code: C80_exclusive_fails (a file created between os.path.exists and open is emptied), C80_offset_fails and C80_offset_ignored (the argument offset is not passed on)."
  },
  {
   "property": "C81",
   "status": "proved",
   "theorems": [
    "Pyzim.Creator.C81_new",
    "Pyzim.Creator.C81_add",
    "Pyzim.Creator.C81_redirect",
    "Pyzim.Creator.C81_flush",
    "Pyzim.Creator.C81_reopen",
    "Pyzim.Creator.C81_build"
   ],
   "note": "C81_build: a whole program, from creating the archive to reading the file (unless the file reaches 2^64 bytes); C81_new, C81_add, C81_redirect, C81_flush, C81_reopen: every single call after every history. Shows that the histories of C70 to C80, which only consist of calls that succeed, cover all programs within the limits (without set_content, whose success is not proved, and removals)."
  },
  {
   "property": "C82",
   "status": "partial",
   "theorems": [
    "Pyzim.Caching.C82_read_partial",
    "Pyzim.Caching.C82_flush_partial",
    "Pyzim.Caching.C82_add_partial",
    "Pyzim.Caching.C82_lost",
    "Pyzim.Caching.C82_add_fails",
    "Pyzim.Caching.C82_close_loses"
   ],
   "note": "C82_read_partial, C82_flush_partial, C82_add_partial: for histories in which never more clusters have unsaved contents than fit into the cache (fewer when a cluster is added). False otherwise: C82_lost (the content set last is lost although the call succeeds), C82_add_fails (KeyError, also by every later flush), C82_close_loses (close does not flush if only cached clusters are modified). Adding a cluster stands for what the strategies do; entries are not part of this model."
  },
  {
   "property": "C83",
   "status": "partial",
   "theorems": [
    "Pyzim.Embedded.C83_embedded_partial",
    "Pyzim.Embedded.C83_old_partial",
    "Pyzim.Embedded.C83_checksum",
    "Pyzim.Embedded.C83_false",
    "Pyzim.Embedded.C83_old_titles",
    "Pyzim.Embedded.C83_flush_cuts",
    "Pyzim.Embedded.C83_flush_loses",
    "Pyzim.Creator.C83_written_partial"
   ],
   "note": "C83_embedded_partial, C83_old_partial, C83_written_partial: everything but the checksum, for archives of version 6.3 or later or with an entry for the list of titles. False of the code: C83_checksum, C83_false (both functions for the checksum ignore the offset), C83_old_titles (the list of titles of older versions is read without the offset), C83_flush_cuts and C83_flush_loses (flush cuts as many bytes from the end of the archive as are in front of it). Other data behind the archive, and writing apart from the end of flush, are not covered."
  },
  {
   "property": "C84",
   "status": "partial",
   "theorems": [
    "Pyzim.Creator.C84_parts",
    "Pyzim.Creator.C84_before_partial",
    "Pyzim.Creator.C84_after_partial",
    "Pyzim.Creator.C84_fails"
   ],
   "note": "C84_before_partial: up to the fifth part (the mimetype list) the file shows the items from before. C84_after_partial: from the eighth part (the header) on it shows the new ones. C84_parts: the parts are the whole of flush. False in between: C84_fails (after the cluster pointer list was written the file cannot be opened). Ends within a part (between the writes of one list, or of several clusters) are not modelled, for the system reordering writes see C87; that the redirects lead where they led before is not claimed (see C76)."
  },
  {
   "property": "C85",
   "status": "partial",
   "theorems": [
    "Pyzim.Creator.C85_kept_partial",
    "Pyzim.Creator.C85_last_partial",
    "Pyzim.Creator.C85_waiting_partial",
    "Pyzim.Creator.C85_existing_partial",
    "Pyzim.Creator.C85_full_fails"
   ],
   "note": "C85_waiting_partial: the page is not in the archive when it is set (it waits in a compression strategy or is added later). C85_existing_partial: the page is there and there are no unsaved changes until the flush. Both assume that at most one item was added with the url of the page or of the target of a redirect, and that the targets come before WmainPage. False in full: C85_full_fails. Both also give that all redirects work. C85_kept_partial: as C85_waiting_partial, if redirects from W/mainPage are added between setting the page and the flush (as the translator does): the page that was set wins. C85_last_partial: the main page is set and unset arbitrarily in between; the last setting wins if it is one to a page that was not in the archive then, or to none. Missing: a last setting to a page that is there already while other changes are unsaved (there the claim fails, see also C32)."
  },
  {
   "property": "C86",
   "status": "partial",
   "theorems": [
    "Pyzim.Creator.C86_removal_succeeds_partial",
    "Pyzim.Creator.C86_unlinking_succeeds_partial",
    "Pyzim.Creator.C86_history_partial",
    "Pyzim.Creator.C86_after_flush_partial",
    "Pyzim.Creator.C86_removed_partial",
    "Pyzim.Creator.C86_live_partial",
    "Pyzim.Creator.C86_unlinked_partial",
    "Pyzim.Creator.C86_missing",
    "Pyzim.Creator.C86_full_fails",
    "Pyzim.Creator.C86_blob_removed"
   ],
   "note": "C86_history_partial, C86_after_flush_partial, C86_removed_partial, C86_live_partial: for articles, and items behind all articles, with blob keep or empty; the targets of redirects were added only once. C86_unlinked_partial: for redirects behind all articles, to which no redirect leads. C86_missing: in full. C86_removal_succeeds_partial (keeping the blob), C86_unlinking_succeeds_partial: when removing succeeds. False of the code: C86_full_fails (removing a resource before an article), C86_blob_removed (blob=remove). Missing: removing redirects before articles and entries with redirects leading to them (C33 and C64 say what is removed then), items that still wait."
  },
  {
   "property": "C87",
   "status": "partial",
   "theorems": [
    "Pyzim.Creator.C87_torn_partial",
    "Pyzim.Creator.C87_fails"
   ],
   "note": "C87_torn_partial: while adding, and up to the fourth part of the flush (the article list). The states between which bytes are compared are those after each call and each part; a byte that is changed and changed back within one of them counts as not written. Where the redirects lead is not claimed (see C76). False for later parts: C87_fails. Missing: the part that writes the mimetype list."
  },
  {
   "property": "C88",
   "status": "partial",
   "theorems": [
    "Pyzim.Counting.C88_counted",
    "Pyzim.Counting.C88_ignore_partial",
    "Pyzim.Counting.C88_without",
    "Pyzim.Counting.C88_update",
    "Pyzim.Counting.C88_fails"
   ],
   "note": "C88_counted: archives filled with the default policy, all four values, in full. C88_ignore_partial: other archives with the value ignore. C88_update: what is counted when such an archive is opened for updating. False of the code otherwise: C88_without (for every archive without M/Counter), C88_fails."
  },
  {
   "property": "C89",
   "status": "partial",
   "theorems": [
    "Pyzim.TransInput.C89_copy_partial",
    "Pyzim.TransInput.C89_fails"
   ],
   "note": "C89_copy_partial: everything except for the title of a redirect whose title is its url. False of the code for these: C89_fails. Also limited to runs that end without an exception, inputs that have a redirect (see C69_no_redirects) and for which an entry W/mainPage, if there is one, is a redirect (what it leads to is what is set as the main page), whose main page is in namespace C and whose redirects lead to entries before W/mainPage in the order of urls, and to outputs opened with counter=\"ignore\"."
  },
  {
   "property": "C90",
   "status": "partial",
   "theorems": [
    "Pyzim.Embedded.C90_index_partial",
    "Pyzim.Embedded.C90_no_index",
    "Pyzim.Embedded.C90_no_library",
    "Pyzim.Embedded.C90_title_index",
    "Pyzim.Embedded.C90_fulltext_index",
    "Pyzim.Embedded.C90_redirect_raises",
    "Pyzim.Embedded.C90_compressed_fails"
   ],
   "note": "C90_index_partial: for an index in an uncompressed cluster. C90_fulltext_index, C90_title_index, C90_no_index, C90_no_library: what get_search returns. The library is a parameter. False of the code otherwise: C90_compressed_fails (a compressed index), C90_redirect_raises (a redirect at the url of the index)."
  },
  {
   "property": "C91",
   "status": "partial",
   "theorems": [
    "Pyzim.C91_entries_partial",
    "Pyzim.C91_articles_partial",
    "Pyzim.C91_outside",
    "Pyzim.C91_clusters",
    "Pyzim.C91_opened",
    "Pyzim.C91_flushed",
    "Pyzim.C91_new_cluster_missed",
    "Pyzim.C91_full_fails"
   ],
   "note": "C91_entries_partial, C91_articles_partial: with bounds in the range. C91_clusters: if the header has the number of clusters, which it has after opening (C91_opened) and after a flush (C91_flushed). False of the code otherwise: C91_outside (every archive), C91_full_fails, C91_new_cluster_missed. Negative bounds are not modelled."
  },
  {
   "property": "C92",
   "status": "partial",
   "theorems": [
    "Pyzim.Creator.C92_retyped",
    "Pyzim.Creator.C92_retitled_partial",
    "Pyzim.Creator.C92_missing",
    "Pyzim.Creator.C92_refused",
    "Pyzim.Creator.C92_target_lost",
    "Pyzim.Creator.C92_redirect_lost",
    "Pyzim.Creator.C92_retype_succeeds",
    "Pyzim.Creator.C92_retitle_succeeds_partial"
   ],
   "note": "C92_retyped: mimetypes of items. C92_retitled_partial: titles of items that no redirect leads to. C92_retype_succeeds: setting a mimetype succeeds; C92_retitle_succeeds_partial: so does setting the title of an item that no redirect leads to. C92_missing, C92_refused: what is refused. False if a redirect leads to the item (C92_target_lost: the item may be lost), and for mimetypes of redirects (C92_redirect_lost)."
  },
  {
   "property": "C93",
   "status": "partial",
   "theorems": [
    "Pyzim.Creator.C93_rename_succeeds_partial",
    "Pyzim.Creator.C93_renamed_partial",
    "Pyzim.Creator.C93_missing",
    "Pyzim.Creator.C93_refused",
    "Pyzim.Creator.C93_target_lost",
    "Pyzim.Creator.C93_taken"
   ],
   "note": "C93_renamed_partial: for items that were added once, with a title that is neither empty nor the url, and that no redirect leads to, and new urls that nothing has (other than the empty one). C93_rename_succeeds_partial: renaming such an item succeeds. C93_missing, C93_refused: what is refused. False if a redirect leads to the item (C93_target_lost: the item is lost, and the redirect leads to another one); a url that is in use is not refused (C93_taken). Missing: items without a title of their own, items added repeatedly, changing the namespace."
  },
  {
   "property": "C94",
   "status": "proved",
   "theorems": [
    "Pyzim.IndexSearch.C94_range",
    "Pyzim.IndexSearch.C94_iter",
    "Pyzim.IndexSearch.C94_iter_in_range",
    "Pyzim.IndexSearch.C94_not_in_archive"
   ],
   "note": "C94_range, C94_iter, C94_iter_in_range: given what the library promises (FindsAll). C94_not_in_archive: an entry that is not in the archive. The library and the parsing of queries are a parameter."
  },
  {
   "property": "C95",
   "status": "partial",
   "theorems": [
    "Pyzim.CompressionOptions.C95_zlib",
    "Pyzim.CompressionOptions.C95_zstandard",
    "Pyzim.CompressionOptions.C95_lzma_partial",
    "Pyzim.CompressionOptions.C95_pyzstd_partial",
    "Pyzim.CompressionOptions.C95_lzma_filters_fail",
    "Pyzim.CompressionOptions.C95_pyzstd_option_fails",
    "Pyzim.CompressionOptions.C95_zdict_ignored",
    "Pyzim.CompressionOptions.C95_options_used",
    "Pyzim.CompressionOptions.C95_max_compression",
    "Pyzim.CompressionOptions.C95_lowram"
   ],
   "note": "C95_zlib (for the window sizes in the documentation), C95_zstandard: in full; bzip2 has no arguments for reading. C95_lzma_partial: without filters, or with raw data. C95_pyzstd_partial: without zstd.option. False of the code otherwise: C95_lzma_filters_fail, C95_pyzstd_option_fails (for all such options), C95_zdict_ignored. C95_options_used, C95_max_compression, C95_lowram: which options and levels the libraries get. What the libraries do with their arguments is the specification ZlibReads, LzmaReads, ZstandardReads, PyzstdReads, taken from their documentation; that limits for memory and windows are big enough is assumed."
  },
  {
   "property": "C96",
   "status": "partial",
   "theorems": [
    "Pyzim.LowRam.C96_same_partial",
    "Pyzim.LowRam.C96_no_list",
    "Pyzim.LowRam.C96_is_article_raises",
    "Pyzim.LowRam.C96_compressed_fails",
    "Pyzim.LowRam.C96_full_fails",
    "Pyzim.Creator.C96_written"
   ],
   "note": "C96_same_partial: archives that have the list of the titles of articles, in a cluster that is not compressed (before version 6.3 the same for the list of all titles). C96_written: every archive written by pyzim is one of these. False of the code otherwise: C96_no_list (every archive of version 6.3 or later without the list), C96_compressed_fails, C96_full_fails; C96_is_article_raises: entry_at_url_is_article (not part of C96_same_partial), in every archive with articles."
  },
  {
   "property": "C97",
   "status": "partial",
   "theorems": [
    "Pyzim.Processed.C97_turned_partial",
    "Pyzim.Processed.C97_observers",
    "Pyzim.Processed.C97_installed",
    "Pyzim.Processed.C97_clusters",
    "Pyzim.Processed.C97_told",
    "Pyzim.Processed.C97_raises",
    "Pyzim.Processed.C97_url_fails",
    "Pyzim.Processed.C97_full_fails"
   ],
   "note": "C97_turned_partial, C97_installed: for all processors; entries are found by url if the processors keep urls, redirects lead where they did if they keep where entries lead. C97_observers: in full. C97_clusters, C97_told, C97_raises. False of the code for processors that change urls: C97_url_fails, C97_full_fails. Processors are modelled as functions that return another entry and have a state of their own; the entry cache and processors that change the archive or write are not modelled here."
  },
  {
   "property": "C98",
   "status": "partial",
   "theorems": [
    "Pyzim.Creator.C98_error",
    "Pyzim.Creator.C98_again",
    "Pyzim.Creator.C98_kept_partial",
    "Pyzim.Creator.C98_file",
    "Pyzim.Creator.C98_full_fails"
   ],
   "note": "C98_kept_partial, C98_again, C98_error, C98_file: in full for redirects that do not lead to items, within the limits of C81 and while the file is shorter than 2^64 bytes (an archive without unsaved changes ignores redirects that wait, see C75, so that adding a redirect and a refused flush have to leave unsaved changes). False for other errors: C98_full_fails, a redirect whose namespace takes two bytes makes flush forget the redirects behind it, and the next flush succeeds without them."
  },
  {
   "property": "C99",
   "status": "partial",
   "theorems": [
    "Pyzim.Creator.C99_moment_raises",
    "Pyzim.Creator.C99_moment_told",
    "Pyzim.Creator.C99_content_then_lists",
    "Pyzim.Creator.C99_refused",
    "Pyzim.Creator.C99_flush_same",
    "Pyzim.Creator.C99_close_same",
    "Pyzim.Creator.C99_told_partial",
    "Pyzim.Creator.C99_failed",
    "Pyzim.Creator.C99_close_told",
    "Pyzim.Creator.C99_raises_before",
    "Pyzim.Creator.C99_raises_after",
    "Pyzim.Creator.C99_raises_content",
    "Pyzim.Creator.C99_clean",
    "Pyzim.Creator.C99_full_fails",
    "Pyzim.Creator.C99_close_again"
   ],
   "note": "C99_told_partial: for archives with unsaved changes. C99_moment_told, C99_moment_raises, C99_content_then_lists, C99_flush_same, C99_close_same, C99_refused, C99_failed, C99_close_told, C99_raises_before, C99_raises_content, C99_raises_after: in full, for all processors that do not change the archive. False of the code without unsaved changes: C99_clean, C99_full_fails. C99_close_again: closing again tells them again."
  },
  {
   "property": "C100",
   "status": "proved",
   "theorems": [
    "Pyzim.C100_right",
    "Pyzim.C100_right_content",
    "Pyzim.C100_full",
    "Pyzim.C100_complete",
    "Pyzim.C100_assertion",
    "Pyzim.C100_not_ascii",
    "Pyzim.Creator.C100_saved"
   ],
   "note": "C100_right, C100_right_content, C100_full, C100_complete, C100_assertion, C100_not_ascii: for all files, even broken ones. C100_saved: for all histories of C70, under its conditions."
  },
  {
   "property": "C101",
   "status": "proved",
   "theorems": [
    "Pyzim.Creator.C101_mimetypes"
   ],
   "note": "C101_mimetypes: for all histories of C70, under its conditions."
  },
  {
   "property": "C102",
   "status": "partial",
   "theorems": [
    "Pyzim.Zim.C102_by_full_url",
    "Pyzim.Zim.C102_removed_partial",
    "Pyzim.Zim.C102_other_attributes",
    "Pyzim.Zim.C102_unbound",
    "Pyzim.Zim.C102_immutable",
    "Pyzim.Zim.C102_renamed",
    "Pyzim.Zim.C102_renamed_missing",
    "Pyzim.Zim.C102_full_fails"
   ],
   "note": "C102_removed_partial: for objects that still have the full url of their entry (C102_other_attributes: setting the title or the mimetype keeps it), if the removal succeeds (C64: when it does). C102_by_full_url, C102_unbound, C102_immutable: in full. False of the code for objects whose url was set: C102_renamed (in every archive the entry with the new url is removed and the own one stays), C102_renamed_missing, C102_full_fails."
  },
  {
   "property": "C103",
   "status": "partial",
   "theorems": [
    "Pyzim.Entry.C103_content_partial",
    "Pyzim.Entry.C103_redirect_partial",
    "Pyzim.Entry.C103_setters",
    "Pyzim.Entry.C103_accepts",
    "Pyzim.Entry.C103_full_fails",
    "Pyzim.Entry.C103_zero_url"
   ],
   "note": "C103_content_partial, C103_redirect_partial: without zero bytes in urls and titles, and for content if the index of the mimetype is not that of redirects. C103_setters, C103_accepts: in full. False of the code otherwise: C103_full_fails, C103_zero_url (and C15_confused_if_mimetype_ffff)."
  }
 ]
}