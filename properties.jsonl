{"id": "C01", "title": "Allocated space never overlaps space in use", "statement": "Starting from a fresh allocator, after any sequence of allocate(n) calls and mark_free calls on space that is currently in use, every newly returned range [start,start+n) lies below the new file end, and contains no byte that is in use, i.e. that belonged to the initial file or was handed out before and has not been freed since.", "quantifier": "every initial file end, every sequence (any length) of allocations of any sizes and frees of any in-use byte ranges", "why_tests_cant": "An overlap appears only for particular interleavings of sizes and frees (splits, merges, tail growth); the sequence space is infinite.", "anchors": ["pyzim/spaceallocator.py: SpaceAllocator.allocate", "pyzim/spaceallocator.py: SpaceAllocator.mark_free"]}
{"id": "C02", "title": "No space is leaked or counted twice", "statement": "At every point of such a history each byte between the initial end and the current file end is either in use or in exactly one free block, and the free blocks are kept sorted, non-empty and separated by at least one in-use byte (so neighbouring free blocks are always merged).", "quantifier": "every history of allocate/mark_free as in C01", "why_tests_cant": "Leaks and un-merged neighbours are only visible on histories that hit a specific merge pattern.", "anchors": ["pyzim/spaceallocator.py: SpaceAllocator.mark_free", "pyzim/spaceallocator.py: SpaceAllocator.allocate"]}
{"id": "C03", "title": "Best fit allocation, and the file grows only when it must", "statement": "allocate(n) with n>0 returns the start of a smallest free block of size at least n, the first such block in file order; if no block is large enough the file end grows, and it grows by exactly n minus the size of a free block that touches the file end (if any); otherwise the file end is unchanged.", "quantifier": "every reachable allocator state and every n", "why_tests_cant": "Depends on the whole list of free blocks, which is unbounded.", "anchors": ["pyzim/spaceallocator.py: SpaceAllocator.allocate"]}
{"id": "C04", "title": "Pointer lists survive a write/read round trip", "statement": "For any list of pointers that fit the pointer field (8 bytes for url and cluster pointers, 4 bytes for title pointers), parsing the serialized bytes returns the same list; every byte string whose length is a multiple of the pointer size parses to a list which serializes to exactly these bytes, any other length is rejected; the reported disk size is the length of the serialization.", "quantifier": "all pointer lists, all byte strings", "why_tests_cant": "Infinite domain of lists and byte strings including the boundary values of the pointer width.", "anchors": ["pyzim/pointerlist.py: SimplePointerList.from_bytes", "pyzim/pointerlist.py: SimplePointerList.to_bytes", "pyzim/pointerlist.py: TitlePointerList"]}
{"id": "C05", "title": "Ordered pointer lists stay sorted", "statement": "If an ordered pointer list is sorted by key, then after any sequence of add(key of p, p) and remove(key) it is still sorted by key (check_sorted does not raise), add inserts exactly one pointer, remove deletes exactly one pointer of that key, and remove of an absent key raises KeyError and changes nothing.", "quantifier": "every key function, every sorted start list, every sequence of add/remove operations", "why_tests_cant": "Sortedness is an invariant over unbounded histories and key functions.", "anchors": ["pyzim/pointerlist.py: OrderedPointerList.add", "pyzim/pointerlist.py: OrderedPointerList.remove", "pyzim/pointerlist.py: OrderedPointerList.check_sorted", "pyzim/pointerlist.py: binarysearch"]}
{"id": "C06", "title": "Looking up a key finds it exactly when it is present", "statement": "On a sorted ordered pointer list has(k) is true iff some pointer has key k, get_index(k)/get(k) return a pointer with key k (the first one) or raise KeyError if there is none, and find_first_greater_equals(k) returns the unique index before which all keys are < k and from which all are >= k.", "quantifier": "every sorted list of any length, every key", "why_tests_cant": "Binary search boundary errors show only for particular lengths and positions; lists are unbounded.", "anchors": ["pyzim/pointerlist.py: binarysearch", "pyzim/pointerlist.py: OrderedPointerList.get_index", "pyzim/pointerlist.py: OrderedPointerList.has", "pyzim/pointerlist.py: OrderedPointerList.find_first_greater_equals"]}
{"id": "C07", "title": "mass_update shifts exactly the requested pointers", "statement": "mass_update(diff,start,end) adds diff to exactly those pointers whose value is >= start and < end (missing bounds unbounded), keeps all other pointers and all positions, and marks the list dirty iff some pointer was changed.", "quantifier": "all lists, diffs and bounds", "why_tests_cant": "Universal over list contents and bounds.", "anchors": ["pyzim/pointerlist.py: SimplePointerList.mass_update"]}
{"id": "C08", "title": "The on-disk pointer list reads the same pointers as the in-memory one", "statement": "For a pointer list stored at some offset of a file, the on-disk variant reports the same length, the same pointer at every valid index, raises IndexError for the others, and yields the same lookups by key as the in-memory list loaded from the same bytes; reading it never changes it.", "quantifier": "all files, offsets, list lengths, indexes and keys", "why_tests_cant": "Equivalence of two implementations over all files and queries.", "anchors": ["pyzim/pointerlist.py: OnDiskSimplePointerList", "pyzim/pointerlist.py: OnDiskOrderedPointerList", "pyzim/pointerlist.py: OnDiskTitlePointerList"]}
{"id": "C09", "title": "Mimetype list round trip and size", "statement": "Writing a mimetype list and reading it back yields the same mimetypes in the same order, reading consumes exactly the written bytes whatever follows them, and get_disk_size equals the number of bytes written.", "quantifier": "all lists of non-empty NUL-free mimetypes; any trailing file content", "why_tests_cant": "Infinite domain; the terminator logic fails only on special contents (empty names, empty list).", "anchors": ["pyzim/mimetypelist.py: MimeTypeList.from_file", "pyzim/mimetypelist.py: MimeTypeList.to_bytes", "pyzim/mimetypelist.py: MimeTypeList.get_disk_size", "pyzim/util/ioutil.py: read_until_zero"]}
{"id": "C10", "title": "Mimetype ids are stable and unique", "statement": "After any sequence of registrations, an id once obtained for a mimetype keeps denoting that mimetype, registering an already known mimetype returns its id and changes nothing (in particular does not make the list dirty), different mimetypes have different ids, and ids are the positions 0..n-1.", "quantifier": "all histories of register/get_index calls", "why_tests_cant": "Stability over unbounded histories.", "anchors": ["pyzim/mimetypelist.py: MimeTypeList.register", "pyzim/mimetypelist.py: MimeTypeList.get_index", "pyzim/mimetypelist.py: MimeTypeList.get"]}
{"id": "C11", "title": "Header round trip", "statement": "For all in-range field values, serializing a header yields 80 bytes, and parsing them yields the same header; every 80-byte string parses to a header which serializes to the same bytes; strings of any other length are rejected with ValueError.", "quantifier": "all field values within the field widths; all byte strings", "why_tests_cant": "The domain is 2^640; a swapped or mis-sized field shows only for suitable values.", "anchors": ["pyzim/header.py: Header.from_bytes", "pyzim/header.py: Header.to_bytes"]}
{"id": "C12", "title": "Header acceptance decision and the 'no page' sentinel", "statement": "check_compatible accepts a header iff its magic number is the ZIM magic number and its version is 6.x with x>=1 (NotAZimFile is raised iff the magic number is wrong, IncompatibleZimFile iff only the version is unsupported); main_page and layout_page read as None iff the stored value is 0xffffffff, and setting None or an index and reading it back returns it.", "quantifier": "all header values, all versions, all page values", "why_tests_cant": "Universal over field values.", "anchors": ["pyzim/header.py: Header.check_compatible", "pyzim/header.py: Header.main_page", "pyzim/header.py: Header.layout_page"]}
{"id": "C13", "title": "Header setters validate, track dirtiness and respect immutability", "statement": "A header setter called with a negative value raises ValueError and changes nothing (the magic number is the exception, any integer is accepted there); on an immutable header it raises and changes nothing; otherwise exactly the named field takes the value and the header is dirty afterwards iff it was dirty before or the value changed.", "quantifier": "all headers, fields, values and mutability states, all sequences of setter calls", "why_tests_cant": "Universal over histories and values.", "anchors": ["pyzim/header.py: Header setters", "pyzim/modifiable.py: ModifiableMixIn.ensure_mutable"]}
{"id": "C14", "title": "Content entries survive a write/read round trip", "statement": "For any content entry with in-range numbers, NUL-free url and title and a mimetype id below 0xffff, parsing its serialization (followed by anything) yields a content entry with the same mimetype, namespace, revision, cluster and blob number, url, title and parameters, and get_disk_size is the number of bytes written.", "quantifier": "all field values, urls, titles and trailing file content", "why_tests_cant": "Infinite domain of strings and numbers.", "anchors": ["pyzim/entry.py: ContentEntry.to_bytes", "pyzim/entry.py: ContentEntry.from_file", "pyzim/entry.py: BaseEntry.from_file", "pyzim/entry.py: ContentEntry.get_disk_size"]}
{"id": "C15", "title": "Redirect entries survive a write/read round trip and are never confused with content entries", "statement": "For any redirect entry with in-range numbers and NUL-free url and title, parsing its serialization yields a redirect entry with the same namespace, revision, redirect index, url and title; a serialized content entry is never parsed as a redirect nor vice versa as long as no content entry uses mimetype id 0xffff.", "quantifier": "all field values, urls, titles and trailing file content", "why_tests_cant": "Infinite domain.", "anchors": ["pyzim/entry.py: RedirectEntry.to_bytes", "pyzim/entry.py: RedirectEntry.from_file", "pyzim/entry.py: BaseEntry.from_file"]}
{"id": "C16", "title": "Titles, urls and namespaces of entries", "statement": "An entry's title is its url iff the stored title is empty, otherwise the stored title; setting a url or title containing a NUL byte or a namespace not encoding to exactly one byte is rejected and changes nothing; an entry outside namespace C is never an article; full_url is namespace followed by url and determines both.", "quantifier": "all entries and values, all sequences of setter calls", "why_tests_cant": "Universal over strings and histories.", "anchors": ["pyzim/entry.py: BaseEntry.title", "pyzim/entry.py: BaseEntry.namespace", "pyzim/entry.py: BaseEntry.is_article", "pyzim/entry.py: BaseEntry.full_url"]}
{"id": "C17", "title": "Resolving a redirect", "statement": "If following redirects from an entry reaches a content entry, resolve() returns that content entry; it returns only content entries; on an archive whose redirects are acyclic and in range resolve() always returns.", "quantifier": "all redirect graphs and start entries", "why_tests_cant": "Depends on unbounded chains of redirects; non-termination on cycles is invisible to tests.", "anchors": ["pyzim/entry.py: RedirectEntry.resolve", "pyzim/entry.py: RedirectEntry.follow"]}
{"id": "C18", "title": "Cluster information byte", "statement": "generate_infobyte and parse_infobyte are inverse for every supported compression type and extended flag; parse_infobyte rejects exactly the bytes whose low nibble is not a supported compression type.", "quantifier": "all 256 byte values; all compression types", "why_tests_cant": "Small domain but the claim is about all of it, including unknown values.", "anchors": ["pyzim/cluster.py: Cluster.parse_infobyte", "pyzim/cluster.py: Cluster.generate_infobyte"]}
{"id": "C19", "title": "Cluster content survives a write/read round trip", "statement": "For any list of blobs, the bytes a cluster writes (information byte, compressed offset table and blob data, 4- or 8-byte offsets) parse back to the same number of blobs, the same blob sizes and the same content of each blob, for every lossless compression and every chunking of the blob sources.", "quantifier": "all lists of blobs, all chunkings, both offset widths, any compression whose decompression inverts it", "why_tests_cant": "Infinite domain; depends on offset arithmetic over all blobs.", "anchors": ["pyzim/cluster.py: ModifiableClusterWrapper.iter_write", "pyzim/cluster.py: ModifiableClusterWrapper._iter_write_raw", "pyzim/cluster.py: Cluster.iter_blob_offsets", "pyzim/cluster.py: Cluster.read_blob", "pyzim/cluster.py: Cluster.get_number_of_offsets"]}
{"id": "C20", "title": "Offsets always fit the chosen offset width", "statement": "A modified cluster is written with 4-byte offsets only if every offset it writes is below 2^32, so serialization never overflows or truncates an offset.", "quantifier": "all lists of blob sizes", "why_tests_cant": "Needs blobs totalling around 4 GiB; a test cannot cover the boundary for all layouts.", "anchors": ["pyzim/cluster.py: ModifiableClusterWrapper.is_extended", "pyzim/cluster.py: ModifiableClusterWrapper._iter_write_raw"]}
{"id": "C21", "title": "Reading part of a blob", "statement": "For every range that starts within the blob, read_blob(i, start, end) returns exactly the bytes [start, min(end, size)) of blob i (everything from start if end is missing), never bytes of another blob, for on-disk, offset-remembering, in-memory and modified clusters alike; an out-of-range blob index raises.", "quantifier": "all clusters, blob indexes and ranges, all cluster implementations", "why_tests_cant": "Universal over offsets tables and ranges; off-by-one and past-the-end errors depend on neighbours.", "anchors": ["pyzim/cluster.py: Cluster.read_blob", "pyzim/cluster.py: InMemoryCluster.read_blob", "pyzim/cluster.py: OffsetRememberingCluster", "pyzim/cluster.py: ModifiableClusterWrapper.read_blob"]}
{"id": "C22", "title": "Streaming a blob yields the same bytes as reading it", "statement": "For every chunk size and every range that starts within the blob, the concatenation of the chunks of iter_read_blob(i, start, end, buffersize) equals read_blob(i, start, end), and no chunk is longer than the buffer size (for a blob set in a modified cluster: if its blob source respects the size it is asked for).", "quantifier": "all clusters, ranges and buffer sizes", "why_tests_cant": "Universal over ranges and chunk sizes.", "anchors": ["pyzim/cluster.py: Cluster.iter_read_blob", "pyzim/cluster.py: InMemoryCluster.iter_read_blob", "pyzim/cluster.py: ModifiableClusterWrapper.iter_read_blob", "pyzim/entry.py: ContentEntry.iter_read"]}
{"id": "C23", "title": "A modified cluster behaves like a list of blobs", "statement": "Whatever sequence of append_blob, set_blob and empty_blob has been applied to a modifiable cluster, mixed with reading and resetting, the number of blobs, each blob's size, content and the serialized cluster agree with applying the same operations to a plain list of byte strings; operations on an index beyond the end raise and change nothing; append_blob returns the index of the new blob. (remove_blob, whose use the documentation discourages, is C58.)", "quantifier": "all wrapped clusters and all sequences of modifications", "why_tests_cant": "Index translation errors show up only after specific sequences of removals and insertions.", "anchors": ["pyzim/cluster.py: ModifiableClusterWrapper.set_blob", "pyzim/cluster.py: ModifiableClusterWrapper.append_blob", "pyzim/cluster.py: ModifiableClusterWrapper.empty_blob", "pyzim/cluster.py: ModifiableClusterWrapper.reset"]}
{"id": "C24", "title": "The decompressing reader is a faithful window on the decompressed stream", "statement": "For every well-behaved streaming decompressor and every sequence of read(n) with n >= 1, read_n(n), skip, skip_to and iter_read calls, the reader returns consecutive slices of the decompressed stream, reports its position correctly, read_n returns exactly n bytes or everything left, and at the end of the stream empty bytes are returned for ever.", "quantifier": "all decompressors satisfying the streaming contract, all compressed inputs, all call sequences", "why_tests_cant": "The behaviour depends on how a decompressor slices its output; schedules are unbounded.", "anchors": ["pyzim/compression.py: DecompressingReader.read", "pyzim/compression.py: DecompressingReader.read_n", "pyzim/compression.py: DecompressingReader.skip_to", "pyzim/compression.py: DecompressingReader.iter_read"]}
{"id": "C25", "title": "Decompressor wrappers honour the streaming contract", "statement": "The passthrough, zlib and zstandard wrappers deliver, under any sequence of decompress(data, max_length) calls made according to needs_input, exactly the decompressed bytes in order, at most max_length per call, without losing or duplicating a byte.", "quantifier": "all inputs, all max_length sequences, all chunkings of the input", "why_tests_cant": "Byte loss occurs only for particular interleavings of buffer state and input.", "anchors": ["pyzim/compression.py: PassthroughDecompressor", "pyzim/compression.py: ZlibDecompressorWrapper", "pyzim/compression.py: ZstandardDecompressorWrapper"]}
{"id": "C26", "title": "Every item added through a compression strategy is stored once and readable where its entry says", "statement": "After adding any sequence of items and flushing the strategy, each item has exactly one written entry, and the blob at the (cluster number, blob number) of that entry is the item's content; no two entries share a blob, and each cluster has been written exactly once.", "quantifier": "all sequences of items and sizes, all strategy size limits", "why_tests_cant": "The cluster cut points depend on the whole history of sizes.", "anchors": ["pyzim/compressionstrategy.py: SimpleCompressionStrategy.add_item", "pyzim/compressionstrategy.py: SimpleCompressionStrategy._finalize_current_cluster", "pyzim/compressionstrategy.py: SimpleCompressionStrategy.flush", "pyzim/compressionstrategy.py: MimetypeBasedCompressionStrategy"]}
{"id": "C27", "title": "Clusters built by a strategy respect the size limit", "statement": "Every cluster written by the simple strategy either holds a single item or has a total decompressed size that exceeds the configured maximum by at most one offset (4 bytes; limits below 4 GiB), and a new cluster is begun exactly if the current one is not empty and its size plus that of the item exceeds the maximum.", "quantifier": "all item sequences and limits", "why_tests_cant": "Universal over size sequences.", "anchors": ["pyzim/compressionstrategy.py: SimpleCompressionStrategy._new_cluster_needed"]}
{"id": "C28", "title": "Mimetype based strategies never mix mimetypes of different groups", "statement": "With the mimetype based strategy, every cluster contains only items that the strategy's grouping assigns to the same group, and item order within a group is preserved.", "quantifier": "all item sequences and mimetypes", "why_tests_cant": "Universal over sequences.", "anchors": ["pyzim/compressionstrategy.py: MimetypeBasedCompressionStrategy"]}
{"id": "C29", "title": "The mimetype counter string round trips", "statement": "Parsing the string of a counter gives back the same non-zero counts, for all mimetypes including those with parameters ('; charset=...'); a parsed string, written and parsed again, gives the same non-zero counts.", "quantifier": "all counters over mimetypes of the supported shape", "why_tests_cant": "Splitting ambiguities depend on ';', ' ' and '=' positions in arbitrary strings.", "anchors": ["pyzim/counter.py: Counter.from_string", "pyzim/counter.py: Counter.to_string"]}
{"id": "C30", "title": "The mimetype counter counts the entries of the archive", "statement": "If the counter starts out as the number of content entries of each mimetype in namespace C, it is still that number after any sequence of writing new entries, rewriting entries and removing entries, and no count ever becomes negative.", "quantifier": "all archives and operation histories", "why_tests_cant": "An invariant over unbounded histories with renames and mimetype changes.", "anchors": ["pyzim/counter.py: Counter.after_entry_write", "pyzim/counter.py: Counter.after_entry_remove", "pyzim/counter.py: Counter._should_count_entry", "pyzim/archive.py: Zim.write_entry"]}
{"id": "C31", "title": "Redirects may be added in any order", "statement": "Adding redirects whose targets do not exist yet and flushing resolves every redirect whose chain of targets ends in an existing entry, regardless of the order in which they were added, and raises UnresolvedRedirect iff some buffered redirect has no such chain; the resolution loop always terminates.", "quantifier": "all sets of buffered redirects, all insertion orders, all archives", "why_tests_cant": "Order independence over all permutations and graph shapes.", "anchors": ["pyzim/operationbuffer.py: OperationBuffer", "pyzim/archive.py: Zim.add_full_url_redirect"]}
{"id": "C32", "title": "The last main page setting wins", "statement": "After any sequence of set_mainpage_url calls (existing, not yet existing or None) followed by a flush, the main page is the one given by the last call.", "quantifier": "all sequences of calls and all interleavings with entry additions", "why_tests_cant": "Interaction of immediate and deferred settings over histories.", "anchors": ["pyzim/operationbuffer.py: OperationBuffer.buffer_set_mainpage_url", "pyzim/archive.py: Zim.set_mainpage_url"]}
{"id": "C33", "title": "An archive behaves like a map from full urls to entries", "statement": "After any sequence of writing new entries, rewriting existing entries and removing entries, looking up a full url yields the entry last written under it, or EntryNotFound if there is none; the url pointer list is strictly sorted, and iteration yields every entry exactly once in url order; the entry count equals the number of entries.", "quantifier": "all histories of entry writes and removals", "why_tests_cant": "Requires an invariant on the url index over unbounded histories.", "anchors": ["pyzim/archive.py: Zim.write_entry", "pyzim/archive.py: Zim.remove_entry_by_full_url", "pyzim/archive.py: Zim.get_entry_by_full_url", "pyzim/archive.py: Zim.iter_entries_by_url"]}
{"id": "C34", "title": "Redirects keep pointing to the same entry", "statement": "Adding, rewriting or removing other entries never changes which entry (by full url) an existing redirect leads to.", "quantifier": "all archives with redirects, all subsequent operations", "why_tests_cant": "Redirects are stored as positions, so every insertion or removal must shift them; wrong shifts depend on relative positions.", "anchors": ["pyzim/archive.py: Zim._update_url_pointers", "pyzim/archive.py: Zim.write_entry", "pyzim/archive.py: Zim.remove_entry_by_full_url"]}
{"id": "C35", "title": "The main page keeps being the same entry", "statement": "Adding, rewriting or removing other entries never changes which entry is the main page.", "quantifier": "all archives with a main page, all subsequent operations", "why_tests_cant": "Positional bookkeeping as for redirects.", "anchors": ["pyzim/archive.py: Zim._update_url_pointers", "pyzim/archive.py: Zim.set_mainpage_url", "pyzim/archive.py: Zim.get_mainpage_entry"]}
{"id": "C36", "title": "The article title list lists exactly the articles", "statement": "After any sequence of operations the article title list contains, for every entry marked as an article and no other, exactly one position, the position denotes that entry, and the list is sorted by title.", "quantifier": "all histories of entry writes and removals", "why_tests_cant": "Positional bookkeeping over unbounded histories.", "anchors": ["pyzim/archive.py: Zim.write_entry", "pyzim/archive.py: Zim.remove_entry_by_full_url", "pyzim/archive.py: Zim.iter_articles", "pyzim/archive.py: Zim.entry_at_url_is_article"]}
{"id": "C37", "title": "Flushing produces a file whose parts do not overlap", "statement": "After a flush the header, mimetype list, url pointer list, cluster pointer list, all entries and all clusters occupy pairwise disjoint byte ranges below the checksum position, the checksum follows at the checksum position and the file ends after it.", "quantifier": "all histories of content writes, flushes and re-openings of an archive that was created with the same amount of space reserved for the mimetype list as the policy states (by default 2048 bytes)", "why_tests_cant": "Depends on allocator histories; overlap corrupts files silently.", "anchors": ["pyzim/archive.py: Zim.flush", "pyzim/archive.py: Zim._init_new", "pyzim/spaceallocator.py: SpaceAllocator"]}
{"id": "C38", "title": "The stored checksum is correct after a flush", "statement": "After every flush that writes, the 16 bytes at the checksum position are the MD5 of all preceding bytes, and the chunk-wise calculation gives the hash of the whole prefix for every file length.", "quantifier": "all file contents and lengths, any chunk size, any incremental hash function", "why_tests_cant": "Universal over file lengths and write orders; later writes could invalidate the checksum.", "anchors": ["pyzim/archive.py: Zim.calculate_checksum", "pyzim/archive.py: Zim.update_checksum", "pyzim/archive.py: Zim.flush"]}
{"id": "C39", "title": "Reopening a flushed archive restores its index", "statement": "Opening the file produced by a flush yields the same header values, mimetypes, cluster pointers and url pointers, hence the same entries for every url, as the archive had in memory.", "quantifier": "all archives (version 6.3 or later) reachable by writing, flushing and re-opening", "why_tests_cant": "Composition of all codecs over arbitrary contents.", "anchors": ["pyzim/archive.py: Zim.flush", "pyzim/archive.py: Zim._load_pointerlists", "pyzim/archive.py: Zim.__init__"]}
{"id": "C40", "title": "The least-recently-used cache is bounded and keeps the most recently used values", "statement": "For every sequence of push, get, has, remove and clear calls, LastAccessCache holds at most max_size keys, namely the most recently used ones, get returns the value last pushed for the key, and the leave callback is called exactly once for each evicted or removed pair.", "quantifier": "all call sequences, all positive sizes", "why_tests_cant": "Linked list manipulation errors depend on access order; sequences are unbounded.", "anchors": ["pyzim/cache.py: LastAccessCache", "pyzim/cache.py: _DoubleLinkedList"]}
{"id": "C41", "title": "The top-access cache is bounded and coherent and only more accessed keys displace others", "statement": "For every sequence of calls TopAccessCache holds at most max_size keys, get returns the value last pushed for the key, a key is only displaced by a key that was accessed more often, and the leave callback is called exactly once for each pair that leaves.", "quantifier": "all call sequences", "why_tests_cant": "Invariant over unbounded histories.", "anchors": ["pyzim/cache.py: TopAccessCache", "pyzim/cache.py: _DoubleLinkedListElement.swap_forward"]}
{"id": "C42", "title": "The hybrid cache never returns outdated values", "statement": "For every sequence of calls, a value returned by HybridCache.get(k) is the value last pushed for k, and the number of cached keys never exceeds the sum of the configured sizes.", "quantifier": "all call sequences and sizes", "why_tests_cant": "Interaction of two caches over histories.", "anchors": ["pyzim/cache.py: HybridCache"]}
{"id": "C43", "title": "Caching is transparent to readers", "statement": "Reading entries or clusters of an unmodified archive through any cache (any kind, any size) returns the same results as without a cache.", "quantifier": "all caches, all access sequences", "why_tests_cant": "Universal over access histories.", "anchors": ["pyzim/cache.py: BaseCache", "pyzim/archive.py: Zim.get_entry_at", "pyzim/archive.py: Zim.get_cluster_at"]}
{"id": "C44", "title": "Concurrent readers do not disturb each other", "statement": "When several threads read positions of the file through acquire_file, every interleaving gives each thread the bytes it would have read alone.", "quantifier": "all numbers of threads and all schedules", "why_tests_cant": "Schedules are exponentially many; races are not reproducible.", "anchors": ["pyzim/archive.py: Zim.acquire_file", "pyzim/archive.py: Zim.filelock"]}
{"id": "C45", "title": "Metadata keys", "statement": "get_metadata_keys returns exactly the names n for which an entry with full url 'M'+n exists, each once and in order. get_metadata returns None iff the entry does not exist or its redirects end in one that leads nowhere; otherwise it returns the content of the entry its redirects lead to. A writable archive is flushed first. get_metadata_dict maps exactly these keys to these values.", "quantifier": "all archives", "why_tests_cant": "Namespace boundary search over arbitrary url sets.", "anchors": ["pyzim/archive.py: Zim.get_metadata_keys", "pyzim/archive.py: Zim.get_metadata", "pyzim/pointerlist.py: OrderedPointerList.find_first_greater_equals"]}
{"id": "C46", "title": "Iterating by cluster visits every entry once, grouped by cluster", "statement": "iter_by_cluster yields every entry of the archive exactly once, content entries grouped by ascending cluster and ordered by blob number within a cluster, redirects last. If the archive has no redirect, the iteration ends with a KeyError after the last group.", "quantifier": "all archives", "why_tests_cant": "Universal over archives, including those without redirects.", "anchors": ["pyzim/util/iter.py: iter_by_cluster"]}
{"id": "C47", "title": "Title prefix search returns exactly the titles with the prefix", "statement": "On a sorted title list TitleStartSearch finds exactly the articles whose title starts with the term, the estimate is the exact number of results, and iterating over the result set (or a range of it, with any page size) yields each result exactly once in title order. A term whose last character is U+10FFFF or U+D7FF raises ValueError or UnicodeEncodeError instead.", "quantifier": "all title lists, search terms (unicode) and page sizes", "why_tests_cant": "Rests on the order of UTF-8 encodings for all strings.", "anchors": ["pyzim/search.py: TitleStartSearch", "pyzim/search.py: SearchResultSet"]}
{"id": "C48", "title": "Immutable and closed objects are not changed", "statement": "Every modifying call on an immutable object (header, mimetype list, pointer list, entry, cluster) raises NonMutable and leaves it unchanged, except mass_update of a pointer list and assigning the compression or is_extended of a cluster, which take effect nevertheless.", "quantifier": "all objects and calls", "why_tests_cant": "Universal over states and calls.", "anchors": ["pyzim/modifiable.py: ModifiableMixIn.ensure_mutable", "pyzim/pointerlist.py: SimplePointerList.append", "pyzim/mimetypelist.py: MimeTypeList.register"]}
{"id": "C49", "title": "Dirty tracking over component trees", "statement": "A component is dirty iff it or some registered sub-component was modified since its last flush, and the remembered old disk size is the size at the last flush or read (unless told otherwise). Every effective modification of a header, mimetype list, pointer list, entry or cluster makes it dirty, except assigning is_extended of a cluster.", "quantifier": "all trees and event histories", "why_tests_cant": "Universal over trees and histories.", "anchors": ["pyzim/modifiable.py: ModifiableMixIn"]}
{"id": "C50", "title": "An object is bound to at most one archive", "statement": "bind succeeds iff the object is unbound or bound to the same archive; unbind makes it unbound; no sequence of calls leaves it bound to an archive other than the one of the last successful bind.", "quantifier": "all sequences of bind/unbind calls", "why_tests_cant": "Universal over histories.", "anchors": ["pyzim/bindable.py: BindableMixIn"]}
{"id": "C51", "title": "Reading strings and blocks from files tolerates short reads", "statement": "read_until_zero returns the bytes up to the first zero byte and leaves the file positioned right behind it, read_n_bytes returns exactly n bytes or what is left, however the file object splits its reads.", "quantifier": "all files, positions, chunk sizes and short-read schedules", "why_tests_cant": "Schedules of short reads are unbounded.", "anchors": ["pyzim/util/ioutil.py: read_until_zero", "pyzim/util/ioutil.py: read_n_bytes"]}
{"id": "C52", "title": "Blob sources deliver their content exactly once", "statement": "Reading a blob source with any positive buffer size until it returns an empty result yields the whole content in order, of the length announced by get_size.", "quantifier": "all contents and read sizes", "why_tests_cant": "Universal over contents and read sequences.", "anchors": ["pyzim/blob.py: InMemoryBlobSource", "pyzim/blob.py: FileBlobSource", "pyzim/blob.py: EmptyBlobSource", "pyzim/blob.py: EntryBlobSource"]}
{"id": "C53", "title": "Writing or replacing a cluster keeps all other clusters readable", "statement": "write_cluster of a new cluster appends it: its index is the previous cluster count (a given number is ignored). Of a cluster that is in the archive already, with its number or without one, write_cluster replaces it. In both cases all other cluster indexes keep denoting the same data, and the space of a replaced cluster is freed exactly once.", "quantifier": "all archives and sequences of cluster writes", "why_tests_cant": "Depends on allocator and pointer list histories.", "anchors": ["pyzim/archive.py: Zim.write_cluster", "pyzim/archive.py: Zim.remove_cluster_by_index", "pyzim/archive.py: Zim.get_cluster_index_by_offset"]}
{"id": "C54", "title": "Items and entries convert into each other", "statement": "An item turned into an entry has the item's namespace, url, title and article flag and a mimetype id that denotes the item's mimetype; converting that entry back into an item gives the same values.", "quantifier": "all items", "why_tests_cant": "Universal over strings.", "anchors": ["pyzim/item.py: Item.to_entry", "pyzim/item.py: Item.from_entry"]}
{"id": "C55", "title": "The remaining reading methods of on-disk pointer lists agree with in-memory lists", "statement": "On an on-disk ordered pointer list over a byte string, get_by_pointer (with and without an index), iter_values and to_bytes return the same results as on the in-memory list parsed from the same bytes.", "quantifier": "all pointer lists, keys and indexes", "why_tests_cant": "Universal over lists; the code violates it, the model proves how.", "anchors": ["pyzim/pointerlist.py: OnDiskSimplePointerList", "pyzim/pointerlist.py: OnDiskOrderedPointerList", "pyzim/pointerlist.py: OnDiskTitlePointerList"]}
{"id": "C56", "title": "A range that starts beyond the end of a blob is empty", "statement": "read_blob and iter_read_blob of a range that starts at or beyond the end of the blob return no bytes and do not raise (as documented: if start >= size of the blob, the return value will be b\"\").", "quantifier": "all clusters, blobs and starts beyond the end", "why_tests_cant": "Depends on what follows the blob in the file; the code violates it, the model proves how.", "anchors": ["pyzim/cluster.py: Cluster.read_blob", "pyzim/cluster.py: Cluster.iter_read_blob", "pyzim/cluster.py: InMemoryCluster.read_blob"]}
{"id": "C57", "title": "The size of a cluster on disk is computed exactly", "statement": "get_total_compressed_size returns the number of bytes the cluster occupies in the file, information byte included, whatever follows it in the file and whatever was read before.", "quantifier": "all clusters, files, compression types and call histories", "why_tests_cant": "The decompressor is fed bytes beyond the cluster; how many depends on read sizes and on what was read before.", "anchors": ["pyzim/cluster.py: Cluster.get_total_compressed_size", "pyzim/compression.py: DecompressingReader.total_compressed_size"]}
{"id": "C58", "title": "Removing blobs from a modifiable cluster", "statement": "After any sequence of remove_blob, mixed with append_blob, set_blob and empty_blob, the number, sizes and contents of the blobs agree with doing the same to a plain list; removing a blob that does not exist raises.", "quantifier": "all wrapped clusters and all sequences of modifications including removals", "why_tests_cant": "Index translation errors show up only after specific sequences of removals and insertions; the code violates it, the model proves when it is right and how it goes wrong.", "anchors": ["pyzim/cluster.py: ModifiableClusterWrapper.remove_blob", "pyzim/cluster.py: ModifiableClusterWrapper._adjust_index"]}
{"id": "C59", "title": "The top-access cache evicts its least accessed key", "statement": "Whenever TopAccessCache displaces a key, no other cached key was accessed less often than the displaced one.", "quantifier": "all call sequences", "why_tests_cant": "Depends on the order of the internal list after arbitrary histories.", "anchors": ["pyzim/cache.py: TopAccessCache", "pyzim/cache.py: _DoubleLinkedListElement.swap_forward"]}
{"id": "C60", "title": "The counter of an opened archive is the stored one or an exact count", "statement": "Loading the counter of an archive gives the counts of the stored counter string if it can be read, otherwise (load_or_reinit, reinit) exactly the number of content entries of each mimetype in namespace C; 'load' never counts anew and 'ignore' installs no counter.", "quantifier": "all archives, stored strings and modes", "why_tests_cant": "Universal over archive contents.", "anchors": ["pyzim/counter.py: Counter.load_from_archive"]}
{"id": "C61", "title": "The counter is a table of numbers that never go below zero", "statement": "Any sequence of increment_count and decrement_count calls is answered and leaves the counts as in a table of numbers: incrementing adds one, decrementing a count of at least one subtracts one, decrementing any other count raises ValueError and changes nothing; a successful call marks the counter for writing.", "quantifier": "all counters and call sequences", "why_tests_cant": "Universal over histories.", "anchors": ["pyzim/counter.py: Counter.increment_count", "pyzim/counter.py: Counter.decrement_count", "pyzim/counter.py: Counter.get_count"]}
{"id": "C62", "title": "Search results are numbered by their position in the result set", "statement": "The result_number of each result of a title search is its 1-based position in the whole result set (as documented for SearchResult).", "quantifier": "all title lists, terms, ranges", "why_tests_cant": "Depends on pagination for result sets of any size; the code violates it, the model proves when it is right and how it goes wrong.", "anchors": ["pyzim/search.py: TitleStartSearch.search_in_range", "pyzim/search.py: SearchResult"]}
{"id": "C63", "title": "Adding and rewriting entries succeeds", "statement": "In an archive whose redirects all lead somewhere and which has less entries than bytes before its first entry, adding a storable entry under a new url and rewriting an entry with an unchanged size return without an exception, at any recursion limit of at least two nested calls, and leave such an archive.", "quantifier": "all such archives and entries", "why_tests_cant": "The calls shift the stored indexes of all redirects behind the entry; an assertion or range check could fail for some constellation only.", "anchors": ["pyzim/archive.py: Zim.write_entry", "pyzim/archive.py: Zim._update_url_pointers"]}
{"id": "C64", "title": "Every existing entry can be removed", "statement": "remove_entry_by_full_url of the url of an existing entry returns without an exception.", "quantifier": "all archives and existing urls", "why_tests_cant": "Depends on the positions of the entry and of all redirects to it; the code violates it, the model proves when it is right and that it always fails in some situations.", "anchors": ["pyzim/archive.py: Zim.remove_entry_by_full_url", "pyzim/archive.py: Zim._update_url_pointers"]}
{"id": "C65", "title": "A failing write leaves the archive well-formed", "statement": "If write_entry raises because the entry cannot be stored, the archive still shows the same entries, and all later operations work as if the call had not been made.", "quantifier": "all archives, entries that cannot be stored, and later operations", "why_tests_cant": "The damage shows only after later operations; the code violates it for entries whose size changes.", "anchors": ["pyzim/archive.py: Zim.write_entry", "pyzim/spaceallocator.py: SpaceAllocator"]}
{"id": "C66", "title": "Operations on entries leave the rest of the file alone", "statement": "Writing an entry, or removing one while keeping its blob, never changes a byte of the file that is in use for anything but entries (header, mimetype list, clusters), and neither the list of mimetypes, the list of clusters nor the buffered operations.", "quantifier": "all archives, entries and allocations", "why_tests_cant": "Depends on the allocator state after arbitrary histories.", "anchors": ["pyzim/archive.py: Zim.write_entry", "pyzim/archive.py: Zim.remove_entry_by_full_url", "pyzim/spaceallocator.py: SpaceAllocator"]}
{"id": "C67", "title": "Following redirects", "statement": "resolve() of an entry returns the entry that is reached by following redirects and is no redirect itself; it raises EntryNotFound iff following the redirects ends in a redirect that leads nowhere, and it never returns iff the redirects lead in a circle; it takes at most as many steps as there are entries or never ends.", "quantifier": "all archives, all entries, all redirect graphs", "why_tests_cant": "Unbounded chains and circles of redirects.", "anchors": ["pyzim/entry.py: RedirectEntry.resolve", "pyzim/entry.py: RedirectEntry.follow", "pyzim/archive.py: Zim.get_entry_by_url_index"]}
{"id": "C68", "title": "Removing a cluster keeps all other clusters", "statement": "remove_cluster_by_index succeeds and frees exactly the space of that cluster, while all other cluster indexes keep denoting the same data. This remains so during every later history of writes and removals of clusters: every index denotes what was last written as the cluster with this index, unless it has been removed.", "quantifier": "all archives and all histories of cluster writes and removals", "why_tests_cant": "Universal over histories; the code violates it, the model proves how.", "anchors": ["pyzim/archive.py: Zim.remove_cluster_by_index", "pyzim/archive.py: Zim.write_cluster", "pyzim/archive.py: Zim.get_cluster_index_by_offset", "pyzim/archive.py: Zim._new_cluster_num"]}
{"id": "C69", "title": "Translating an archive copies every entry once", "statement": "Translating a well-formed archive that has a redirect and a main page with the handlers of ZimTranslator itself sets the main page of the output, adds each entry exactly once (content with its namespace, url, title, mimetype, content and article flag; redirects with their target and title), except for the title listings and the counter, which pyzim creates itself, then flushes the output and closes both archives.", "quantifier": "all well-formed archives: any number of entries, clusters, redirects and mimetypes; also all handlers of subclasses", "why_tests_cant": "Tests translate one sample archive; an archive without redirects, an entry handled twice or skipped, or a wrong title shows only for particular combinations of entries.", "anchors": ["pyzim/util/translator.py: ZimTranslator.translate", "pyzim/util/translator.py: ZimTranslator.handle_item", "pyzim/util/translator.py: ZimTranslator.handle_redirect", "pyzim/util/translator.py: ZimTranslator.handle_header", "pyzim/util/iter.py: iter_by_cluster"]}
{"id": "C70", "title": "Everything added to a new archive is in the file", "statement": "After any history of creating an archive, adding items (to be compressed or not), flushing, and opening it again for writing, once the last flush has succeeded: opening the file succeeds and shows exactly the items that were added, each with its namespace, url, title, mimetype, size and content; iterating over the entries yields each once, and iterating over the articles yields exactly the items that are articles, in the order of their titles. An item replaces those with the same full url that were added before an earlier flush.", "quantifier": "all histories of successful calls, all items with different urls between two flushes, both strategies with any size limit, any lossless compression, all classes of clusters for reading", "why_tests_cant": "The whole pipeline (strategies, clusters, entries, allocation, pointer lists, title list stored as the content of an entry, checksum, opening) must fit together for any number and sizes of items and any placement of flushes.", "anchors": ["pyzim/archive.py: Zim.add_item", "pyzim/archive.py: Zim.flush", "pyzim/archive.py: Zim._init_new", "pyzim/archive.py: Zim._init_load", "pyzim/compressionstrategy.py: SimpleCompressionStrategy", "pyzim/compressionstrategy.py: MimetypeBasedCompressionStrategy", "pyzim/entry.py: ContentEntry.set_content", "pyzim/entry.py: ContentEntry.read", "pyzim/pointerlist.py: TitlePointerList.from_zim_entry"]}
{"id": "C71", "title": "The item added last counts", "statement": "Of several items with the same full url, the one that was added last is in the archive after a flush.", "quantifier": "all histories of add_item and flush", "why_tests_cant": "Depends on which strategy each item went to and on the order in which strategies write clusters; the code violates it between two flushes.", "anchors": ["pyzim/archive.py: Zim.add_item", "pyzim/archive.py: Zim.flush", "pyzim/compressionstrategy.py: MimetypeBasedCompressionStrategy.flush"]}
{"id": "C72", "title": "Metadata that was set is found", "statement": "set_metadata adds the value under the key. After a flush, everybody who opens the file gets with get_metadata the value that was set last before it (as bytes, or as text if it is text), None for other keys, and with get_metadata_keys exactly the keys, in order. In the archive being written get_metadata finds values set since the last flush too. Empty keys, an empty mimetype and zero bytes in either are refused without any effect.", "quantifier": "all histories of set_metadata, add_item, flush and opening again; all keys and values", "why_tests_cant": "Values pass through items, strategies, clusters and entries; any number of keys and items, any placement of flushes.", "anchors": ["pyzim/archive.py: Zim.set_metadata", "pyzim/archive.py: Zim.get_metadata", "pyzim/archive.py: Zim.get_metadata_keys", "pyzim/archive.py: Zim.add_item"]}
{"id": "C73", "title": "Entries of a written archive give their content as a whole, in part and in pieces", "statement": "For every item added to an archive, once it is flushed: the entry found by its full url reports the size of the content; read() returns the content, read(start, end) the slice content[start:end], and iter_read yields pieces of at most the given size which together are the content or the slice. This is so in the archive being written and in every archive opened from its file. Negative positions and an end before the start raise ValueError.", "quantifier": "all histories of add_item, flush and opening again; all ranges starting within the content; all piece sizes; iterations that are abandoned too; all classes of clusters", "why_tests_cant": "All combinations of ranges, blob positions, compressions and cluster classes.", "anchors": ["pyzim/entry.py: ContentEntry.read", "pyzim/entry.py: ContentEntry.iter_read", "pyzim/entry.py: ContentEntry.get_size", "pyzim/archive.py: Zim.get_cluster_by_index"]}
{"id": "C74", "title": "An entry can be read from a position to its end", "statement": "read(start) without an end returns the content from start on, and iter_read(start=...) yields it.", "quantifier": "all entries and positions within the content", "why_tests_cant": "The code violates it for every entry; the model proves it.", "anchors": ["pyzim/entry.py: ContentEntry.read", "pyzim/entry.py: ContentEntry.iter_read"]}
{"id": "C75", "title": "Redirects that were added lead to their targets", "statement": "Items and redirects are added to an archive in any order (a redirect may be added before its target), with flushes and opening again in between. After a flush, everybody who opens the file finds each redirect at its source url; it leads to the entry with the url of its target, has the title it was given, or the title of the target if none was given, and reading what it resolves to gives the content of the target.", "quantifier": "all histories of add_item, add_redirect, flush and opening again in which the sources are new urls", "why_tests_cant": "Redirects are stored as indices into the url list, which change with every entry that is inserted; redirects may be buffered until their target exists. The code violates it if the target is replaced by an entry of another size, and if a redirect is buffered while nothing else is unsaved.", "anchors": ["pyzim/archive.py: Zim.add_full_url_redirect", "pyzim/archive.py: Zim.add_redirect", "pyzim/operationbuffer.py: OperationBuffer", "pyzim/archive.py: Zim.flush", "pyzim/archive.py: Zim.write_entry", "pyzim/entry.py: RedirectEntry.resolve"]}
{"id": "C76", "title": "Work that was not flushed does no harm", "statement": "Items and redirects are added to an archive without unsaved changes, and then the program ends (or crashes between two calls) without flushing it. Although new clusters and entries have already been written to the file, opening it shows exactly what the last flush left: the same items with the same contents, the same redirects at their urls leading to the same entries, and nothing else.", "quantifier": "all histories up to a state without unsaved changes; all sequences of add_item and add_redirect after it; every point between two of these calls", "why_tests_cant": "The file is written in place by many calls; every prefix of every sequence of additions is a possible crash point. The code violates it for redirects and for items that are replaced.", "anchors": ["pyzim/archive.py: Zim.add_item", "pyzim/archive.py: Zim.write_entry", "pyzim/archive.py: Zim.write_cluster", "pyzim/archive.py: Zim.flush", "pyzim/spaceallocator.py: SpaceAllocator"]}
{"id": "C77", "title": "Setting the content of an item changes this content and nothing else", "statement": "An item that was added before the last flush gets another content by set_content of its entry, with a flush of the cluster it returns. From then on the entry has the new content, whatever else is unsaved; after the next flush everybody who opens the file finds the item with its new content, and all other items, their contents, and all redirects are as they were. This holds whether the cluster is compressed or not, for longer and for shorter contents, and however the archive was filled before and after. set_content of a url that is not found, or of a redirect, is refused.", "quantifier": "all histories of add_item, add_redirect, set_content, flush and opening again; all contents", "why_tests_cant": "The whole cluster is written anew, possibly at another offset; the old space is reused by later calls. All sequences of calls and all sizes matter.", "anchors": ["pyzim/entry.py: ContentEntry.set_content", "pyzim/cluster.py: ModifiableClusterWrapper.set_blob", "pyzim/cluster.py: ModifiableClusterWrapper.flush", "pyzim/archive.py: Zim.write_cluster", "pyzim/archive.py: Zim.flush"]}
{"id": "C78", "title": "The entry M/Counter says how many items of each mimetype the archive has", "statement": "With the default policy (the counter is loaded or initialised when an archive is opened). Items are added, also in place of items that were flushed before and with other mimetypes, contents are set, and redirects are added at urls of their own; the archive is flushed and opened again in any order. Once there are no unsaved changes, the file has exactly these items and redirects and an entry M/Counter, and the text of this entry says for each mimetype how many items in the namespace C have it. So does the counter of the archive object, also after opening the file again.", "quantifier": "all histories of creating, add_item, add_redirect, set_content, flush and opening again; all mimetypes in which a semicolon is followed by a space", "why_tests_cant": "The counter is updated by the difference at each entry that a strategy writes, much later than the item is added; it is written in the middle of a flush and parsed again when opening. Any number of items, replacements and flushes.", "anchors": ["pyzim/counter.py: Counter", "pyzim/counter.py: CounterProcessor", "pyzim/archive.py: Zim.write_entry", "pyzim/archive.py: Zim.flush", "pyzim/archive.py: Zim.add_item"]}
{"id": "C79", "title": "Closing an archive, or leaving its with statement, saves everything", "statement": "close() writes all unsaved changes: after it, whoever opens the file finds exactly the items and redirects that were added (and with the default policy an up to date M/Counter). The archive is closed then, has no unsaved changes, and closing it again is harmless. Leaving a with statement does the same, whether or not the block raises; the exception of the block is raised nevertheless, and an exception while saving is not suppressed. A closed archive refuses flush, add_item, set_metadata, redirects, set_mainpage_url, removing and writing entries with ZimFileClosed and does not change.", "quantifier": "all histories of adding items and redirects, setting contents and flushing their clusters (C82 is about clusters that are not flushed), flushing and opening again; all blocks of with statements, with and without exceptions", "why_tests_cant": "Whether closing loses data depends on everything that happened before, on what is still buffered, and on the flags of unsaved changes of many objects.", "anchors": ["pyzim/archive.py: Zim.close", "pyzim/archive.py: Zim.__enter__", "pyzim/archive.py: Zim.__exit__", "pyzim/archive.py: Zim._check_closed", "pyzim/archive.py: Zim.closed", "pyzim/archive.py: Zim.flush"]}
{"id": "C80", "title": "Zim.open touches only what its mode allows, and looks where it is told to", "statement": "Zim.open changes no other file. Modes r, u and a neither create nor change the file (and raise if it is missing); w creates or empties it; x raises FileExistsError for an existing file and does not change it, even if another process creates the file at that moment; unknown modes raise ValueError and change nothing. The archive is looked for at the given offset of the file.", "quantifier": "all paths, modes, offsets and contents of the file system; everything other processes may do during the call", "why_tests_cant": "Other processes may act between any two system calls. The code violates it for mode x (the check and the opening are separate) and for offset (which is ignored).", "anchors": ["pyzim/archive.py: Zim.open"]}
{"id": "C81", "title": "Within the limits of the format, creating and filling an archive does not fail", "statement": "Whoever creates an archive and adds items and redirects to it, with any number of flushes in between, gets no exception, and in the end everybody who opens the file finds exactly these items, with their values and contents, and these redirects, leading to their targets. The limits: all urls differ and are not that of the article list; the mimetypes fit into the reserved space; the number of entries fits into 32 bits (and, if there are redirects, is below the offset at which the data starts, because the code compares an index with an offset); the offsets in clusters and the length of the file fit into 64 bits; and each redirect leads, in any number of steps, to an item that was added before the flush.", "quantifier": "all sequences of loads of items and redirects with flushes in between; all contents, mimetypes and strategies; also every single call after every history", "why_tests_cant": "Whether a call succeeds depends on everything that was added before: free space, offsets, url order, buffered redirects. No finite set of archives shows that none of the many checks and conversions on the way fails.", "anchors": ["pyzim/archive.py: Zim.add_item", "pyzim/archive.py: Zim.add_full_url_redirect", "pyzim/archive.py: Zim.flush", "pyzim/archive.py: Zim.write_entry", "pyzim/archive.py: Zim.write_cluster", "pyzim/archive.py: Zim._init_new", "pyzim/compressionstrategy.py: BaseCompressionStrategy"]}
{"id": "C82", "title": "A content that was set is what is read afterwards and what the next flush writes, although it is only cached", "statement": "set_content of an entry changes a cluster in the cache; nobody has to flush the cluster. From then on reading the entry delivers the new content, whether the cluster is still cached, was written because it had to leave the cache, or was flushed by the user, and all other contents are read as they were. Adding clusters and flushing clusters or the archive keeps this. After flush (or close) the file has exactly the contents that were set last.", "quantifier": "all histories of setting and reading contents, flushing clusters, adding clusters and flushing the archive; all sizes of the cache, contents and ranges", "why_tests_cant": "Which cluster is written at which moment depends on the size of the cache and the whole order of accesses; writing a cluster uses the cache again, in the middle of its own work. The code violates it when more clusters are modified than fit into the cache, and for close.", "anchors": ["pyzim/archive.py: Zim.get_cluster_by_index", "pyzim/archive.py: Zim._on_cluster_cache_leave", "pyzim/archive.py: Zim.write_cluster", "pyzim/archive.py: Zim.flush", "pyzim/archive.py: Zim.close", "pyzim/cache.py: LastAccessCache", "pyzim/entry.py: ContentEntry.set_content"]}
{"id": "C83", "title": "An archive that is stored behind other data reads like the archive on its own", "statement": "Zim(f, offset=n) of a file in which an archive follows n bytes of other data: opening it raises exactly what opening the archive alone raises, or it succeeds, and then every call that reads (entries by index and url, has_entry, main page, lists of entries and articles, following redirects, sizes, contents in whole, in part and piece by piece, the checksum) returns or raises the same. In particular archives that were written by this library show exactly what was added to them. Flushing a writable archive there leaves it readable.", "quantifier": "all files (complete or damaged), all data in front of them, all compressions and cluster classes, all calls", "why_tests_cant": "Every single seek in the code has to add the offset; each of them must be right for all files and offsets. The code violates it for the checksum, for lists of titles of older versions, and at the end of flush.", "anchors": ["pyzim/archive.py: Zim.__init__", "pyzim/archive.py: Zim._load_pointerlists", "pyzim/archive.py: Zim.get_entry_at", "pyzim/archive.py: Zim.get_cluster_at", "pyzim/archive.py: Zim.calculate_checksum", "pyzim/archive.py: Zim.get_checksum", "pyzim/archive.py: Zim.flush"]}
{"id": "C84", "title": "A flush that is cut off leaves the file as it was before or as it is after", "statement": "Items and redirects are added to an archive without unsaved changes, none in place of an item it has, and flush is called. If the program ends in the middle of it, opening the file succeeds and shows exactly the items and redirects from before, or all of them with the new ones.", "quantifier": "all histories of the archive, all items and redirects that are added, all points of a flush between its parts (compression strategies, buffered operations, article list, mimetype list, cluster pointers, url pointers, header, checksum, shortening the file)", "why_tests_cant": "A crash can happen at any point, and what the parts of the file written so far overwrite depends on the free space, hence on the whole history. The code violates it between the cluster pointer list and the header.", "anchors": ["pyzim/archive.py: Zim.flush", "pyzim/archive.py: Zim.write_cluster", "pyzim/archive.py: Zim.write_entry", "pyzim/spaceallocator.py: SpaceAllocator"]}
{"id": "C85", "title": "The main page that was set is the main page of the saved file", "statement": "set_mainpage_url(url) is called while an archive is being filled; an item with this url in the namespace C is in the archive, waits to be written or is added later. After the next flush, opening the file and asking for the main page gives an entry that leads to that page, and the archive shows all other items and redirects as if the main page had not been set.", "quantifier": "all histories of the archive, all items and redirects that are added after the main page was set, all urls", "why_tests_cant": "The main page is stored as an index into the list of all entries, which every added or removed entry shifts; the setting may be executed at once or at the end of the flush, after all other writes. The code violates it when items wait to be written while the main page is set to a page that is there already.", "anchors": ["pyzim/archive.py: Zim.set_mainpage_url", "pyzim/archive.py: Zim.flush", "pyzim/archive.py: Zim.get_mainpage_entry", "pyzim/operationbuffer.py: OperationBuffer"]}
{"id": "C86", "title": "Removing an entry removes exactly that entry, at once and in the saved file", "statement": "remove_entry_by_full_url(url) of an item that was added before the last flush and that no redirect leads to: at once the url is not found any more (removing it again raises EntryNotFound), all other items have their contents; after the next flush the file shows exactly the other items and all redirects, the list of articles has exactly the articles that are left. The same holds for removing a redirect that no redirect leads to; the file then shows all items and the other redirects. This holds in any mix with adding items and redirects, setting contents, further removals, flushes and opening the file again. A url without an entry raises EntryNotFound and changes nothing.", "quantifier": "all histories of adding, setting contents, removing, flushing and reopening; all urls; all values of blob", "why_tests_cant": "Removing shifts all indexes behind the entry: in redirects, in the list of articles, in the header; whether they are still right depends on everything that was added and removed before. The code violates it for items that are no articles (articles behind them are lost from the list) and for blob='remove'.", "anchors": ["pyzim/archive.py: Zim.remove_entry_by_full_url", "pyzim/archive.py: Zim._update_url_pointers", "pyzim/archive.py: Zim.flush", "pyzim/cluster.py: ModifiableClusterWrapper.empty_blob", "pyzim/cluster.py: ModifiableClusterWrapper.remove_blob"]}
{"id": "C87", "title": "A crash of the whole system while an archive is being filled leaves the items that were saved readable", "statement": "Items and redirects are added to an archive without unsaved changes, none in place of an item it has, and flush may be called. If the system stops before the flush writes its lists and the header, any part of what was written since may have reached the disk, in any order, and the bytes that were written may be wrong: as long as all the bytes that were not written to are there, opening the file succeeds and shows exactly the items from before, with their contents, and the redirects.", "quantifier": "all histories of the archive, all items and redirects that are added, all files that agree with the saved one in all bytes that were not changed since", "why_tests_cant": "The number of possible files after such a crash is exponential in what was written; that none of the bytes needed is among those written to depends on the free space, hence on the whole history. The code violates it for the later parts of a flush.", "anchors": ["pyzim/archive.py: Zim.flush", "pyzim/archive.py: Zim.write_cluster", "pyzim/archive.py: Zim.write_entry", "pyzim/archive.py: Zim.add_item", "pyzim/spaceallocator.py: SpaceAllocator"]}
{"id": "C88", "title": "Opening an archive for reading does not depend on how mimetypes are counted", "statement": "Opening an existing archive for reading succeeds with every value of policy.counter and shows the same items and redirects. With 'ignore' there is no counter; otherwise the counter has the number of items of each mimetype. Opening an archive for updating that has no entry M/Counter gives a counter with these numbers, too.", "quantifier": "all archives filled by any history of additions, flushes and reopening, with or without an entry M/Counter; all four values of the policy; all cluster classes", "why_tests_cant": "Whether the stored counter is right depends on the whole history of the archive, and all archives have to open. The code violates it for archives without M/Counter: reading them raises NonMutable with the default policy.", "anchors": ["pyzim/archive.py: Zim.__init__", "pyzim/archive.py: Zim.install_processor", "pyzim/archive.py: Zim.add_item", "pyzim/counter.py: Counter.load_from_archive", "pyzim/counter.py: Counter.on_install", "pyzim/policy.py: Policy"]}
{"id": "C89", "title": "Translating an archive copies it", "statement": "When a ZimTranslator with the default handlers has translated an archive into a new one, opening the written file shows the main page of the input; every entry of the input that pyzim does not create itself is found by its full url, content with the same title, mimetype, size and content, redirects with the same title and leading to the same full url; the articles are the same; and nothing else is found, except for the list of articles and the redirect to the main page.", "quantifier": "all well-formed inputs (any number of entries, redirects and clusters, any urls, titles, mimetypes and contents within the limits of the format), all compression strategies of the output, all cluster classes the copy is read with", "why_tests_cant": "The copy goes through iterating by cluster, the compression strategies, buffered redirects, saving and parsing; a unit test copies one file. The code violates it for the titles of some redirects.", "anchors": ["pyzim/util/translator.py: ZimTranslator.translate", "pyzim/util/translator.py: ZimTranslator.handle_redirect", "pyzim/util/translator.py: ZimTranslator.handle_header", "pyzim/util/translator.py: ZimTranslator.finalize", "pyzim/archive.py: Zim.add_item", "pyzim/archive.py: Zim.add_full_url_redirect", "pyzim/archive.py: Zim.set_mainpage_url", "pyzim/archive.py: Zim.flush", "pyzim/archive.py: Zim.close"]}
{"id": "C90", "title": "The search reads the index where it is in the file", "statement": "get_search() returns the fulltext search if the archive has a fulltext index and the search library is installed, else the title search if it has a title index, else the search by titles; it does not raise because an index is missing or the library is not installed. The library gets an offset into the file at which the file has exactly the content of the entry of the index, also if the archive starts behind other data in the file.", "quantifier": "all archives, at any offset in the file, all positions and cluster classes of the index entry, with and without the library", "why_tests_cant": "The offset is computed from the start of the archive, the position of the cluster and the offsets inside it; the library reads arbitrary bytes if it is wrong by one. The code violates it for compressed indexes and for redirects at the url of the index.", "anchors": ["pyzim/search.py: XapianSearch.__init__", "pyzim/search.py: XapianSearch.open_for_archive", "pyzim/archive.py: Zim.get_search", "pyzim/cluster.py: Cluster.get_offset"]}
{"id": "C91", "title": "Iterating over a part of an archive is like slicing", "statement": "iter_entries(start, end), iter_articles(start, end) and iter_clusters(start, end) yield what l[start:end] would be if l was the list that the same method yields without bounds; without bounds all of them are yielded, for iter_clusters also the clusters that were written since the last flush.", "quantifier": "all archives, all start and end that are not negative, or left out", "why_tests_cant": "Ranges over all archives and all pairs of bounds. The code violates it for bounds behind the end and for new clusters.", "anchors": ["pyzim/archive.py: Zim.iter_entries", "pyzim/archive.py: Zim.iter_articles", "pyzim/archive.py: Zim.iter_clusters", "pyzim/pointerlist.py: SimplePointerList.iter_pointers"]}
{"id": "C92", "title": "Changing the mimetype or the title of an entry is what everybody sees", "statement": "entry = zim.get_entry_by_full_url(url); entry.mimetype = m (or entry.title = t); entry.flush(); for an item that was added before the last flush. After the next flush of the archive, opening the file shows the item with the new mimetype (title; its url if the title is empty), the same content and otherwise the same attributes, and all other items and redirects as they were; articles are listed in the order of the new titles. Empty mimetypes and values with a zero byte raise ValueError, an unknown url EntryNotFound; then nothing changes.", "quantifier": "all histories of adding, setting contents, removing, changing mimetypes and titles, flushing and reopening; all urls; all values, as str, bytes or None", "why_tests_cant": "An entry whose size changes moves in the file and is taken out of all lists and added again, so all indexes shift twice; what is still right then depends on everything before. The code violates it if a redirect leads to the item (ValueError, and the item is lost), and for mimetypes of redirects.", "anchors": ["pyzim/entry.py: BaseEntry.title", "pyzim/entry.py: BaseEntry.mimetype", "pyzim/entry.py: BaseEntry.mimetype_id", "pyzim/entry.py: BaseEntry.flush", "pyzim/archive.py: Zim.write_entry", "pyzim/archive.py: Zim.flush", "pyzim/mimetypelist.py: MimeTypeList.get_index"]}
{"id": "C93", "title": "Renaming an entry is what everybody sees", "statement": "entry = zim.get_entry_by_full_url(url); entry.url = n; entry.flush(); for an item that was added before the last flush, and a new url that no other entry has. After the next flush of the archive, opening the file shows the item at the new url (in the same namespace) with the same title, mimetype and content, nothing at the old one, and all other items and redirects as they were; it is listed as an article if it was one before. A new url with a zero byte raises ValueError, an unknown url EntryNotFound; then nothing changes.", "quantifier": "all histories of adding, setting contents, removing, changing mimetypes, titles and urls, flushing and reopening; all urls; all new urls, as str or bytes", "why_tests_cant": "The entry moves to another place in all lists, so the indexes in between shift; what is still right then depends on everything before. The code violates it if a redirect leads to the item (ValueError, the item is lost, and redirects lead elsewhere), and does not refuse a url that is in use.", "anchors": ["pyzim/entry.py: BaseEntry.url", "pyzim/entry.py: BaseEntry.flush", "pyzim/archive.py: Zim.write_entry", "pyzim/archive.py: Zim.flush"]}
{"id": "C94", "title": "The index search returns what the library finds", "statement": "For the search that uses the search library: search_in_range(term, start, n) returns the matches from the start-th on, at most n, in the order of the library, each with its place among all matches, the likelihood the library gives, and the full url and title of the entry in the archive. Iterating over search(term) ends and yields every match once, in order; iter_in_range(start, n) yields that range. If the index names an entry that is not in the archive, EntryNotFound is raised.", "quantifier": "all archives, all terms, all rankings of the library of any length, all ranges", "why_tests_cant": "The matches are fetched in pages by positions counted from 1 here and from 0 in the library; an error of one repeats or skips a match only at a boundary between pages. Ranges over all rankings and ranges.", "anchors": ["pyzim/search.py: XapianSearch.search", "pyzim/search.py: XapianSearch.search_in_range", "pyzim/search.py: SearchResultSet.__iter__", "pyzim/search.py: SearchResultSet.iter_in_range"]}
{"id": "C95", "title": "An archive can be read with the options it was written with", "statement": "If clusters are compressed with some compression_options, the decompressor created from the same options accepts the data; the target, the number of threads and the options for compression only do not matter for reading. Options that are given reach the library, whatever the target is, and no target compresses harder than MAX_COMPRESSION.", "quantifier": "all options and pairs of targets, all supported libraries", "why_tests_cant": "Ranges over all combinations of options for the compressor and the decompressor. The code violates it for filters of lzma and for levels of pyzstd, and ignores the documented zdict option.", "anchors": ["pyzim/compression.py: LzmaCompressionInterface", "pyzim/compression.py: Bz2CompressionInterface", "pyzim/compression.py: ZlibCompressionInterface", "pyzim/compression.py: ZstandardCompressionInterface", "pyzim/compression.py: PyZstdCompressionInterface", "pyzim/compression.py: CompressionTarget"]}
{"id": "C96", "title": "Reading with little memory shows the same", "statement": "An archive that can be opened with the default policy can be opened with LOW_RAM_DECOMP_POLICY, also behind other data in a file, and shows the same then: all entries by index and url, the main page, entries and articles in order and in parts, where redirects lead, whether an entry is an article, and all contents and sizes.", "quantifier": "all files, all positions of the archive in them, all classes of clusters, all histories by which an archive was written", "why_tests_cant": "With this policy no list is in memory: every lookup, search and iteration reads pointers from the file, at positions that depend on the header and on where in a cluster the list is. Ranges over all archives. The code violates it for archives without the list, for lists in compressed clusters, and when asking whether an entry is an article.", "anchors": ["pyzim/policy.py: LOW_RAM_DECOMP_POLICY", "pyzim/pointerlist.py: OnDiskSimplePointerList", "pyzim/pointerlist.py: OnDiskOrderedPointerList", "pyzim/pointerlist.py: OnDiskTitlePointerList", "pyzim/archive.py: Zim._load_pointerlists", "pyzim/archive.py: Zim.entry_at_url_is_article"]}
{"id": "C97", "title": "Processors see every entry and change nothing else", "statement": "With processors installed whose methods do not raise: whoever gets an entry (by index or url, as main page, by iterating over entries or articles, or by following a redirect) gets what the processors make of the entry of the archive, each getting what the one installed before it returned, and likewise for clusters; if they leave clusters as they are, contents and sizes are as without them. Processors that only observe change nothing. While iterating, a processor is told about each entry exactly once, in order, with its location. What a processor raises, the caller gets.", "quantifier": "all archives, all lists of processors, all states they may have, all functions they may apply to entries", "why_tests_cant": "Processors are code of the user: ranges over all of them and all their states. The code violates it for searches by url, which call the processors for every entry they compare with.", "anchors": ["pyzim/processor.py: BaseProcessor", "pyzim/archive.py: Zim.install_processor", "pyzim/archive.py: Zim.get_entry_at", "pyzim/archive.py: Zim.get_cluster_at", "pyzim/archive.py: Zim._get_full_url_for_entry_at"]}
{"id": "C98", "title": "A refused flush loses nothing", "statement": "If flush raises an error because a redirect does not lead to an item, then nothing that was added is lost, however often this happens: once the missing items were added, flush succeeds, and whoever opens the file finds exactly the items and redirects, whether they were added before or after the flushes that failed, each redirect leading to its target. Until then, the file shows what was saved before. Within the limits, flush raises no other error.", "quantifier": "all histories of adding items and redirects with any number of failing flushes between them, all classes of clusters and policies of compression", "why_tests_cant": "A flush that fails stops somewhere in the middle: clusters and some redirects are written, others still wait, and the lists and the header are not written. Ranges over all histories and all places where it may stop. The code violates it for other errors raised by a redirect: those behind it are forgotten.", "anchors": ["pyzim/archive.py: Zim.flush", "pyzim/archive.py: Zim.add_full_url_redirect", "pyzim/operationbuffer.py: OperationBuffer._apply_redirects", "pyzim/operationbuffer.py: OperationBuffer.finalize_entry_dependent_operations"]}
{"id": "C99", "title": "Processors are told about flushes and closing", "statement": "While an archive is flushed, each processor is told before anything is written, once all contents are written, and when the archive is saved, in the order in which the processors were installed; when it is closed, each is told before and after. Processors that do not raise change nothing of what flush and close do. If flush fails, no processor is told that the archive was flushed. What a processor raises, the caller gets: if it raises before the flush, nothing was changed; if it raises once the contents are written, the file still shows what was saved before; if it raises after the flush, everything is saved.", "quantifier": "all archives, all lists of processors and all states they may have, all errors they may raise", "why_tests_cant": "Processors are code of the user, called in the middle of flush and close: ranges over all of them, all states of the archive and all places where one of them raises. The code violates it for archives without unsaved changes.", "anchors": ["pyzim/processor.py: BaseProcessor.before_flush", "pyzim/processor.py: BaseProcessor.after_content_flush", "pyzim/processor.py: BaseProcessor.after_flush", "pyzim/processor.py: BaseProcessor.before_close", "pyzim/processor.py: BaseProcessor.after_close", "pyzim/archive.py: Zim.flush", "pyzim/archive.py: Zim.close"]}
{"id": "C100", "title": "Entries are found by namespace and url", "statement": "Getting an entry by a namespace and an url yields an entry with exactly this namespace and url, in any file, even a broken one, and finds every entry that is found by its full url. A namespace that is not a single character is refused with an AssertionError; in a namespace whose character takes several bytes nothing is found. After any history of adding items and redirects, flushing and opening, each item is found by its namespace and url in the saved file (by its url alone if it is in namespace C), with its title and content, redirects likewise, and every other pair of namespace and url raises EntryNotFound.", "quantifier": "all files (even broken ones), all namespaces and urls; all histories of adding items and redirects, flushing and opening again", "why_tests_cant": "The search compares encoded full urls in whatever file was opened: that namespace and url of what is found are those asked for rests on the boundary between them being unambiguous for every string, and on the search checking what it found in every file.", "anchors": ["pyzim/archive.py: Zim.get_entry_by_url", "pyzim/archive.py: Zim.get_content_entry_by_url", "pyzim/archive.py: Zim.get_entry_by_full_url"]}
{"id": "C101", "title": "The mimetypes of an archive are those of its items", "statement": "After any history of adding items and redirects, flushing and opening, whoever opens the saved file gets for each item the mimetype it was added with and for each redirect the mimetype of redirects. Iterating over the mimetypes as strings does not fail and yields each mimetype once, those of all items among them and no others but that of the list of articles and those of items that were replaced; getting a mimetype by index yields what is at this place, and an IndexError for every other index, even a negative one.", "quantifier": "all histories of adding items and redirects, flushing and opening again; all mimetypes, all indexes", "why_tests_cant": "The indexes stored in entries are resolved in a list that grows, is moved and is read again; that it never gets a mimetype twice and that no index is off has to hold for every history.", "anchors": ["pyzim/archive.py: Zim.get_mimetype_by_index", "pyzim/archive.py: Zim.get_mimetype_of_entry", "pyzim/archive.py: Zim.iter_mimetypes", "pyzim/entry.py: BaseEntry.mimetype"]}
{"id": "C102", "title": "Removing an entry object removes its entry", "statement": "Calling remove on an entry that was got from an archive removes exactly this entry and the redirects that lead to it, whatever attributes of the object were set since then; all other entries stay. An entry that is not bound, or cannot be changed, raises BindRequired or NonMutable, and the archive is unchanged.", "quantifier": "all well-formed archives, all entries in them, all values that may be set", "why_tests_cant": "What is removed depends on attributes of the object at the time of the call, which may have been changed in any way. The code violates it for objects whose url was set but which were not flushed: another entry is removed.", "anchors": ["pyzim/entry.py: BaseEntry.remove", "pyzim/archive.py: Zim.remove_entry_by_full_url"]}
{"id": "C103", "title": "Entries that can be created are stored as they are", "statement": "An entry, for content or a redirect, that can be created and written is read from the file with the namespace, url, title, target and mimetype it was created with; what cannot be stored is refused, by the setters with a ValueError that leaves the entry as it is, or when the entry is written.", "quantifier": "all namespaces, urls, titles, indexes and mimetypes", "why_tests_cant": "Strings end with a zero byte in the file, and numbers have a fixed size: ranges over all strings and numbers. The code violates it: the constructors accept urls and titles with a zero byte, and an index of a mimetype that means redirects.", "anchors": ["pyzim/entry.py: ContentEntry", "pyzim/entry.py: RedirectEntry", "pyzim/entry.py: BaseEntry.url", "pyzim/entry.py: BaseEntry.title", "pyzim/entry.py: BaseEntry.from_file"]}
