# Formal model of pyzim in Lean 4: design

The model lives in `lean/Verif/`. It is a shallow, total, executable model:
each Python function is a Lean function mirroring its branches; exceptions are
values (`PyRes α := Except PyErr α`); stateful objects are structures and their
methods are functions `State → Args → Result × State` (`PyM σ α`), so a change of the
state before an exception is visible. Every definition cites the file and lines of `/repo`
it models and says where it simplifies.

## Layout

| directory | content |
|---|---|
| `lean/Verif/Model/` | model of the code, roughly one file per Python module |
| `lean/Verif/Spec/` | small specifications the theorems refer to: what a map, a cache, a laid out file, a stream, … is. They do not use the code's algorithms |
| `lean/Verif/Lemmas/` | helper lemmas, no property statements |
| `lean/Verif/Props/` | the property theorems (`Cnn_…`), the negations found, and the `example`s which show that the hypotheses can be met by non-trivial states |
| `seeded/LOG.jsonl` | the wrong programs the theorems were tested against |

`_partial` marks a theorem which proves only a part of its property. Where a property is false of
the code, the full statement is kept as a `Prop` (`C34Rewrite`, `C35Add`, `C35Rewrite`, `C36Full`,
`C64Full`, `C65Full`, `C31Full`, `C32Full`, `C68Full`, `C71Full`, …) and its negation is proved with a
concrete history (`Cnn_false`, `Cnn_…_false`, `Cnn_…_fails`).

## Trusted base

* Lean's kernel (4.33.0). Theorems depend at most on the axioms `propext`,
  `Classical.choice` and `Quot.sound`; no other axiom is declared. No `sorry`,
  `native_decide`, `bv_decide`, `implemented_by`, `unsafe`. Concrete cases are evaluated by
  `decide` / `decide +kernel`, i.e. by the kernel.
* The faithfulness of the transcription Python → Lean (by hand, cited).
* The Python runtime as transcribed in `Model/Base.lean`, `Model/Str.lean`, `Model/Struct.lean`:
  slices, `struct` (little-endian, unpadded), `bytes`/`str` and UTF-8, files with
  `seek`/`read`/`write`/`truncate` (a write behind the end fills with zeros, writing nothing does
  nothing), integers without bound, `int()` of ASCII digits, dictionaries in insertion order,
  stable `sorted`.
* Behaviour assumed of code outside the repository. It is always an explicit hypothesis or
  parameter of a theorem, and satisfiability is shown by an instance:

| assumption | where | instance |
|---|---|---|
| a decompressor returns the next bytes of the plain stream, in pieces of any size, and says when it needs input (`Streams`); a compressed stream knows its end (`Closed`) and reports surplus input (`Occupies`) | `Spec/Stream.lean` | passthrough; toy zlib/zstandard objects |
| the external zlib and zstandard objects behave like their documentation (`ZlibStreams`, `ZstdStreams`); the wrapper classes are then proved to meet `Streams` | `Props/Compression.lean` | toy objects |
| compressing and then decompressing gives the data back (`Lossless`, `Compresses`, `Working`) | `Spec/ModCluster.lean`, `Spec/Strategy.lean` | no compression |
| compressed data knows its end, and does not depend on the pieces it was compressed in (`Sealed`, `Replaceable`; C77 and C78) | `Spec/ModCluster.lean` | `Lemmas/ToyCodec.lean` |
| a blob source delivers its content and its size is right (`Delivers`, `Sound`) | `Spec/ModCluster.lean` | in-memory source |
| a hash is computed incrementally (`Hasher.Computes`); partial reads deliver at least one byte before the end of the file (`Delivering`) | `Spec/Checksum.lean` | toy hash |
| a cluster object writes what it reports as its size, and remembers it (`ClusterOps.Writes`) | `Spec/Clusters.lean` | clusters made by `new_cluster` (`C53_new_cluster_writes`). For a wrapper around an uncompressed cluster of the file it is proved (`C53_stored_cluster_writes`); around a compressed one it is assumed, as it needs compression to give the same size twice |
| uncompressed data is stored and read as it is (`Passthrough`) | `Spec/ModCluster.lean` | `rawPassthrough` |
| what the compression strategies, buffered operations and the article title list write during `flush` (`Env.Good`, `Contents`) is some sequence of cluster and entry writes | `Spec/Layout.lean` | `demoEnv` |
| the search library returns the part of its ranking that it is asked for, with ranks from 0, and the index names entries as namespace, slash, url (`FindsAll`; C94) | `Spec/IndexSearch.lean` | `fndSearch` |
| which decompressor of a library reads the data of which compressor (`ZlibReads`, `LzmaReads`, `ZstandardReads`, `PyzstdReads`; C95) | `Spec/CompressionOptions.lean` | – |
| a `threading.Lock` excludes and is not re-entrant | `Model/Threads.lean` | – |

## What is modelled and what is not

| Python module | modelled | not modelled |
|---|---|---|
| `spaceallocator.py` | everything | lock (each method is one step), logging |
| `pointerlist.py` | in-memory, ordered, title, on-disk lists | locks |
| `mimetypelist.py`, `header.py` | everything | type checks; the uuid is its 16 bytes |
| `entry.py` | codec, attributes, dirty tracking, `follow`, `resolve`, `read`, `get_size`, `set_content` | `revision`/`parameters` (always 0 and empty) |
| `cluster.py` | all readable kinds, `EmptyCluster`, `ModifiableClusterWrapper` | negative blob indexes of the wrapper |
| `compression.py` | `DecompressingReader`, the wrapper classes, how options and targets become arguments of the libraries | the libraries; `recompress` helpers |
| `compressionstrategy.py` | all strategies | locks; the archive is a log of written clusters and entries (C26–C29) or the archive model (C70) |
| `cache.py` | all caches, the linked list with its pointers | locks; callbacks using the cache again, except for the cluster cache (`Model/Caching.lean`) |
| `counter.py` | everything | – |
| `operationbuffer.py` | everything | type checks |
| `item.py`, `blob.py`, `bindable.py`, `modifiable.py` | everything | type checks |
| `search.py` | `TitleStartSearch`, `XapianSearch` and results, where the index is | the Xapian library (a parameter), the choice of a stemmer; likelihoods are fractions |
| `util/ioutil.py`, `util/iter.py`, `util/translator.py` | everything (translator: what is added to the output) | – |
| `archive.py` | entries (get, iterate, write, rename, remove), redirects, main page, metadata reading, clusters (write, remove), flush, checksum, opening, creating, `add_item` end to end (`Model/Creator.lean`), `close`, `with`, `open`, `acquire_file` | writing an archive at a base offset other than 0 (C83 covers reading), processors other than the counter when entries and clusters are written or removed (C97 covers reading, C99 flushing and closing), the entry cache in the writing model (C43 covers reading, C82 the cluster cache when writing), archives with a list of all titles (before version 6.3) |
| `policy.py`, `processor.py`, `constants.py`, `exceptions.py` | the values used by other functions | – |

Simplifications of the archive model (`Model/Archive.lean`): no caches, no processors, no locks
(each method is one step; interleavings of file access are C44), Python's recursion limit is an
explicit depth, a call that never returns is the error `hang`, a blob action of
`remove_entry_by_full_url` is a parameter (in `Model/Remove.lean` it is what the code does). Histories quantify over successful calls at any recursion
depth; C63 says when calls succeed. A well-formed archive's file is at most 16 bytes (the checksum)
longer than the managed space.

Simplifications of opening (`Model/Load.lean`): how title lists are read from the content of their
entries is a parameter (in `Model/Creator.lean` it is what the code does), no placeholder entry for a missing article title list; the counter is added in `Model/Counting.lean` (C78).

## Conventions

* Bytes are `UInt8`, byte strings `List UInt8`. Python ints are `Nat` where the code
  rejects or never produces negative values, otherwise `Int`.
* Python's `str` is Lean's `String` (no lone surrogates; they cannot be encoded).
* Logging, `repr`, docstrings and assertions on argument types are not modelled.

## Per property: what is modelled and how it is proved

| id | property | status | model | method |
|---|---|---|---|---|
| C01 | Allocated space never overlaps space in use | proved | SpaceAllocator | ghost set of bytes in use; invariant (free = managed minus used) by induction on the history |
| C02 | No space is leaked or counted twice | proved | SpaceAllocator | same invariant plus sortedness and gaps of the block list |
| C03 | Best fit allocation, and the file grows only when it must | proved | SpaceAllocator | case analysis of allocate against an independent definition of best fit |
| C04 | Pointer lists survive a write/read round trip | proved | PointerList | round trip by induction |
| C05 | Ordered pointer lists stay sorted | proved | PointerList | sortedness invariant by induction on the history, any key function |
| C06 | Looking up a key finds it exactly when it is present | proved | PointerList | loop invariant of the binary search, total correctness |
| C07 | mass_update shifts exactly the requested pointers | proved | PointerList | pointwise characterisation |
| C08 | The on-disk pointer list reads the same pointers as the in-memory one | proved | PointerList | refinement of the on-disk list to the in-memory list |
| C09 | Mimetype list round trip and size | proved | MimeTypeList, Ioutil | round trip by induction |
| C10 | Mimetype ids are stable and unique | proved | MimeTypeList | invariant over histories |
| C11 | Header round trip | proved | Header, Struct | round trip both directions |
| C12 | Header acceptance decision and the 'no page' sentinel | proved | Header | decision logic stated outright |
| C13 | Header setters validate, track dirtiness and respect immutability | proved | Header | decision logic; histories by induction |
| C14 | Content entries survive a write/read round trip | proved | Entry | round trip |
| C15 | Redirect entries survive a write/read round trip and are never confused with content entries | proved | Entry | round trip |
| C16 | Titles, urls and namespaces of entries | proved | Entry | invariant over histories of setter calls |
| C17 | Resolving a redirect | proved | Resolve | induction on the chain, pigeonhole bound, divergence on cycles |
| C18 | Cluster information byte | proved | Cluster | all bytes and types |
| C19 | Cluster content survives a write/read round trip | proved | ModCluster, Cluster, Compression | round trip: writer against every readable kind, by induction over blobs |
| C20 | Offsets always fit the chosen offset width | proved | ModCluster | arithmetic over all size lists |
| C21 | Reading part of a blob | proved | Cluster, ModCluster | equality with a slice, after any call history |
| C22 | Streaming a blob yields the same bytes as reading it | proved | Cluster, ModCluster | concatenation of chunks equals the slice |
| C23 | A modified cluster behaves like a list of blobs | proved | ModCluster | refinement to a list of blobs |
| C24 | The decompressing reader is a faithful window on the decompressed stream | proved | Compression | simulation invariant over call sequences, abstract decompressor |
| C25 | Decompressor wrappers honour the streaming contract | proved | Compression | wrappers simulate the stream |
| C26 | Every item added through a compression strategy is stored once and readable where its entry says | proved | Strategy | invariant over item sequences; composition with C19 |
| C27 | Clusters built by a strategy respect the size limit | proved | Strategy | invariant over item sequences |
| C28 | Mimetype based strategies never mix mimetypes of different groups | proved | Strategy | invariant over item sequences |
| C29 | The mimetype counter string round trips | proved | Counter | round trip by induction on character lists |
| C30 | The mimetype counter counts the entries of the archive | partial | Counter | invariant over histories; negation by witness |
| C31 | Redirects may be added in any order | partial | OperationBuffer, Archive | fixpoint characterisation of the passes; negation by witness |
| C32 | The last main page setting wins | partial | OperationBuffer, Archive | histories of settings; negation by witness |
| C33 | An archive behaves like a map from full urls to entries | proved | Archive | refinement to a finite map of entries, by induction over histories |
| C34 | Redirects keep pointing to the same entry | partial | Archive | preservation by each operation; negation by witness |
| C35 | The main page keeps being the same entry | partial | Archive | preservation by each operation; negation by witness |
| C36 | The article title list lists exactly the articles | partial | Archive | invariant over histories; negation by witness |
| C37 | Flushing produces a file whose parts do not overlap | proved | Flush, Load, Clusters, Archive | invariant: all parts of the file are disjoint and in used space; over histories of entry, cluster and flush operations |
| C38 | The stored checksum is correct after a flush | proved | Flush | induction on chunks; every later write is followed by the checksum |
| C39 | Reopening a flushed archive restores its index | proved | Load, Flush | composition of the codecs with C37 |
| C40 | The least-recently-used cache is bounded and keeps the most recently used values | proved | Cache | refinement of the pointer structure to a list |
| C41 | The top-access cache is bounded and coherent and only more accessed keys displace others | proved | Cache | invariant over histories |
| C42 | The hybrid cache never returns outdated values | partial | Cache | invariant over histories; negations by witness |
| C43 | Caching is transparent to readers | proved | CachedRead, Cache | simulation: any cache against no cache |
| C44 | Concurrent readers do not disturb each other | proved | Threads | every schedule is equivalent to an order of whole blocks, by induction over the schedule |
| C45 | Metadata keys | proved | Metadata | corollary of C06 and C33 |
| C46 | Iterating by cluster visits every entry once, grouped by cluster | proved | IterByCluster | permutation and order proof |
| C47 | Title prefix search returns exactly the titles with the prefix | proved | Search, Str | UTF-8 preserves the order, then C06 |
| C48 | Immutable and closed objects are not changed | proved | Entry, Header, MimeTypeList, PointerList, ModCluster, Archive | every call on an immutable or closed object, by cases |
| C49 | Dirty tracking over component trees | proved | Modifiable | invariant over histories of component trees |
| C50 | An object is bound to at most one archive | proved | Modifiable | invariant over histories |
| C51 | Reading strings and blocks from files tolerates short reads | proved | Ioutil | induction over schedules of short reads |
| C52 | Blob sources deliver their content exactly once | proved | Blob | induction over read sizes |
| C53 | Writing or replacing a cluster keeps all other clusters readable | proved | Clusters, ClusterObj | invariant over histories, cluster objects by contract |
| C54 | Items and entries convert into each other | proved | Item | direct |
| C55 | The remaining reading methods of on-disk pointer lists agree with in-memory lists | partial | PointerList | negation by witness, agreement on the empty list |
| C56 | A range that starts beyond the end of a blob is empty | partial | Cluster | bounds by induction; negations by witness |
| C57 | The size of a cluster on disk is computed exactly | proved | Cluster, Compression | equality with the number of bytes of the stream |
| C58 | Removing blobs from a modifiable cluster | partial | ModCluster | refinement to a list of blobs; negations by witness |
| C59 | The top-access cache evicts its least accessed key | partial | Cache | negation by witness; comparison of access counts |
| C60 | The counter of an opened archive is the stored one or an exact count | proved | Counter | case analysis, exact count by induction |
| C61 | The counter is a table of numbers that never go below zero | proved | Counter | invariant over histories |
| C62 | Search results are numbered by their position in the result set | partial | Search | first page by computation on any result list; negation by witness |
| C63 | Adding and rewriting entries succeeds | proved | Archive | success conditions, step by step through writeEntry |
| C64 | Every existing entry can be removed | partial | Archive | success conditions; negations by witness |
| C65 | A failing write leaves the archive well-formed | partial | Archive | invariant after a failing call; negation by witness |
| C66 | Operations on entries leave the rest of the file alone | proved | Archive | frame property of every operation |
| C67 | Following redirects | proved | Metadata, Archive | induction on the chain of redirects; witness of a circle |
| C68 | Removing a cluster keeps all other clusters | partial | Clusters | preservation; negations by witness |
| C69 | Translating an archive copies every entry once | proved | Translator, IterByCluster, Item, Resolve | composition of C46 and C54 over the loop; the output is the list of calls made on it |
| C70 | Everything added to a new archive is in the file | proved | Creator, Content, Strategy, Flush, Load and all they use | the archive does what the reduced archive of C26 does (Lemmas/Mirrors); invariant over histories (Lemmas/CreatorInv), composed with C26, C37, C39 |
| C71 | The item added last counts | partial | Creator | corollary of C70; negation by a concrete history |
| C72 | Metadata that was set is found | proved | SetMetadata, Creator, Metadata | set_metadata is a step of the histories of C70; composition of C70 and C45 |
| C73 | Entries of a written archive give their content as a whole, in part and in pieces | proved | Content, Creator | composition of C70, C21 and C22; decision logic for refused ranges |
| C74 | An entry can be read from a position to its end | partial | Content | negation for every entry; the rest is a corollary of C73 |
| C75 | Redirects that were added lead to their targets | partial | OperationBuffer, Creator, Archive | part of the invariant of C70 (Lemmas/CreatorRedirects): what was written before a redirect keeps leading to the same url under insertions; negations by concrete histories |
| C76 | Work that was not flushed does no harm | partial | Creator, Archive, Clusters | invariant over the additions (what is used by the flushed state is not written, except indices of redirects), transferred to an archive with the old header and the new file; negations by concrete histories |
| C77 | Setting the content of an item changes this content and nothing else | proved | Creator, Content, Clusters | the invariant of histories also says by which compressor each cluster was written, so that a cluster that is written anew is measured correctly and replaced; the changed content is tracked in the list of groups of items |
| C78 | The entry M/Counter says how many items of each mimetype the archive has | proved | Counting, Counter, Creator | simulation of the strategies on an archive that counts by those on one that does not, with an invariant for the counter (Lemmas/Counted); induction over the histories, in which the item of the counter is one of the items (Lemmas/CountInv); composition with C29 for reading the counter |
| C79 | Closing an archive, or leaving its with statement, saves everything | proved | Close, Creator, Counting, SetMetadata | composition with C70 and C78; decision logic |
| C80 | Zim.open touches only what its mode allows, and looks where it is told to | partial | Open | decision logic; the actions of other processes between the two system calls are a parameter; negations by concrete cases |
| C81 | Within the limits of the format, creating and filling an archive does not fail | proved | Total | the simulation of the strategies by an abstract log of what they write (as for C70) also transfers success; flushing is split into parts each of which can only fail if the file is too long; redirects by the theorems of C31 on buffered operations |
| C82 | A content that was set is what is read afterwards and what the next flush writes, although it is only cached | partial | Caching | clusters are objects in a heap, and the cache calls write_cluster, which uses the cache again; one induction over the depth of these calls shows what a chain of evictions does (Lemmas/Caching), a second over the histories; negations by concrete runs |
| C83 | An archive that is stored behind other data reads like the archive on its own | partial | Embedded, Compression, Cluster, Entry | position independence: each function that reads a file does the same in a file with bytes in front (Lemmas/Shift), by induction on its loops; negations by a concrete file |
| C84 | A flush that is cut off leaves the file as it was before or as it is after | partial | Interrupted | flush is cut into its parts; up to the mimetype list all bytes in use before are kept (the frame conditions of C37 and C76), or the list is replaced in its reserved space by a longer one; from the header on the file is the one C70 reads; negation by a concrete run |
| C85 | The main page that was set is the main page of the saved file | partial | MainSaved | the invariant of C70 with the buffered main page as a parameter; removing the old redirect and adding the new one keep it (Lemmas/CreatorMain), flushing a strategy in which nothing waits does nothing; negation by a concrete run |
| C86 | Removing an entry removes exactly that entry, at once and in the saved file | partial | Removing | the invariant of C70, with removed items as contents without an entry (Lemmas/CreatorRemove); removing an entry is removing its row and shifting the indexes (C33), emptying its blob is setting its content (C77), a redirect is removed likewise (Lemmas/CreatorUnredirect); induction over the histories (Lemmas/EditHist); that it succeeds: there is room for all rows (Lemmas/EditTotal); negations by concrete runs |
| C87 | A crash of the whole system while an archive is being filled leaves the items that were saved readable | partial | Torn | all bytes in use are fixed while items are added, except for the four bytes of the index in each redirect (frame conditions of C76 and C84); a file with these bytes has the same entries up to these indexes, hence the same items (Lemmas/Torn) |
| C88 | Opening an archive for reading does not depend on how mimetypes are counted | partial | CounterOpen, Counting, Counter | what the archive shows (C70, C78) determines what is read and counted; counting all entries again by induction over them; decision logic for archives without the entry |
| C89 | Translating an archive copies it | partial | TranslateInto, Translator, Creator, Close | composition of C69 (the calls made on the output) with the invariant of C70 and C85 (what such calls lead to); negation by a concrete run |
| C90 | The search reads the index where it is in the file | partial | SearchIndex, Embedded, Cluster | the offset in an uncompressed cluster (C21) composed with the position of the cluster; decision logic of get_search; negation by a concrete file |
| C91 | Iterating over a part of an archive is like slicing | partial | IterRange, Archive, Clusters | mapping over a part of a list is the part of what mapping over the list gives; the number in the header by C39; negations for every archive |
| C92 | Changing the mimetype or the title of an entry is what everybody sees | partial | Amend, Entry, Archive, Remove | the invariant of C86 (what the archive has, group by group) is kept by writing the entry of an item again with another mimetype or title: the catalogue of entries changes at one url only, the marks of articles stay; two more steps in the histories of C86; that it succeeds: writing in place or moving (C63, Lemmas/MoveTotal) in an archive with the invariant (Lemmas/EditTotal, Lemmas/ChangeTotal); negations by concrete archives |
| C93 | Renaming an entry is what everybody sees | partial | Amend, Entry, Archive, Remove | as C92, with an entry that changes its url: the catalogue of entries changes at the old and the new url, the mark of an article moves with it, redirects keep their targets by C34 (Lemmas/CreatorRename); one more step in the histories of C86; that it succeeds: as C92; negations by concrete archives |
| C94 | The index search returns what the library finds | proved | IndexSearch, Embedded | the ranking of the library is a list; the loop that fetches it part by part by induction on what remains; the library (which part of the ranking it returns) is a parameter with a contract |
| C95 | An archive can be read with the options it was written with | partial | CompressionOptions | decision logic: the arguments with which the libraries are called, compared by what the documentation of the libraries says about which decompressor reads which data; findings for every such option |
| C96 | Reading with little memory shows the same | partial | LowRam, Embedded, PointerList | refinement: lists that stay in the file agree with those that are read into memory (OnDiskList.Agree, C27), so every operation gives the same; for written archives the list is in the first cluster by the invariant of C70; negations for all archives or by concrete files |
| C97 | Processors see every entry and change nothing else | partial | Processors, Embedded, PointerList | each method with processors is related to the one without: its result does not depend on the state of the processors (Like), by composition and induction on the loop of the search; the notes of a processor by induction on the list of entries; negation by a concrete processor |
| C98 | A refused flush loses nothing | partial | Creator, OperationBuffer | induction over the history of additions and refused flushes (Retried): a refused flush keeps the invariant of C70/C75 with fewer waiting redirects; that the error can only come from the redirects is taken from the totality of all other parts (C81); the file as for C76; negation by a concrete history |
| C99 | Processors are told about flushes and closing | partial | Told, Creator, Interrupted | flush is split into the flush of contents and that of the lists; decision logic by cases on where it raises; induction on the list of processors; the file as for C84; negation by a concrete archive |
| C100 | Entries are found by namespace and url | proved | Lookup, Archive, Entry | what is found has the key that was searched for (case distinction on the search) and a namespace of one byte (C16); strings that start with one character determine it and the rest; saved archives by C70 |
| C101 | The mimetypes of an archive are those of its items | proved | Mimetypes, MimeTypeList, Creator | the invariant of C70 says that the mimetypes in the list differ and come from the items; opening yields the same list |
| C102 | Removing an entry object removes its entry | partial | EntryRemove, Archive, Entry | decision logic, then the refinement of C33; negation for every archive and by a concrete one |
| C103 | Entries that can be created are stored as they are | partial | Entry | the round trips of C14 and C15, whose conditions follow from what writing checks; negations by concrete entries |

The theorems of each property and what is missing from partial ones are listed in `MANIFEST.json`.

## Statements that were amended

While modelling, these English statements turned out to need a proviso, which is part of
`properties.jsonl` now; what happens without it is proved in each case.

* C27: the size limit of a strategy may be exceeded by one offset (`C27_limit_exceeded`).
* C37: the reserved space for mimetypes is the one the archive was created with
  (`C37_other_reserve_false`); new archives without reserved space are not covered
  (`C37_unreserved_header`).
* C39: version 6.3 or later; reading the content of the article title list is a parameter.
* C45: redirects that lead nowhere. C46: without redirects the iteration ends with `KeyError`.
* C47: searches among articles (`C47_nonarticles_fails`). C48, C49: calls that do not check
  mutability or do not mark as dirty are excluded and named. C53: the number given for a new cluster
  is ignored.

## Defects of the code found by the proofs

Each is a theorem about the model unless marked (not proved).

1. Rewriting an entry with another size decrements redirects that lead to it (`C34_rewrite_false`).
2. The main page index is shifted by `>` where `>=` is needed (`C35_add_false`, `C35_rewrite_false`).
3. Removing an entry that is not an article leaves the article list unshifted (`C36_false`).
4. Entries with redirects to them cannot always be removed (`C64_first_fails`, `C64_cascade_fails`).
5. `set_mainpage_url(None)` leaves a buffered setting behind (`C32_none_false`); a missing page
   makes flushing fail (`C32_missing_fails`, `C32_missing_wins`).
6. Rewriting an entry in place does not mark the archive as dirty (`C38_unnoticed_rewrite`).
7. Removing a cluster aliases two indexes (`C68_false`, `C68_next_index`).
8. The reserved mimetype space is taken from the policy, not from the file
   (`C37_other_reserve_false`, `C37_unreserved_header`).
9. Renaming onto an existing url makes a duplicate (`C33_rename_onto_existing`).
10. `calculate_checksum` never ends on a short file (`C38_short_file_hangs`).
11. A redirect replacing an existing entry leads elsewhere (`C31_replacing_false`).
12. A failing write frees space that is still in use (`C65_false`).
13. Redirects can form circles and `resolve` then never returns (`C67_circle`, C17).
14. The magic number and version are not checked when opening (`C39_magic_unchecked`).
15. The counter is wrong after entries change their kind (`C30_false`); in particular an item that is
    replaced by a redirect is still counted (`C78_redirect_over_item`).
16. The hybrid cache returns outdated values and exceeds its size (`C42_outdated_value`,
    `C42_size_exceeded`); the top-access cache evicts the wrong key (`C59_violated`); a
    least-recently-used cache of size zero raises (`C40_size_zero_raises`).
17. On-disk pointer lists: inherited methods do not work (`C55_on_disk_inherited_methods_broken`).
18. Ranges beyond the end of a blob return bytes of the next blob or raise (C56).
19. Removing blobs from a modified cluster goes wrong (C58).
20. Search results on later pages restart their numbering (`C62_false`).
21. The file lock is not re-entrant, and generators hold it while yielding: using the archive in
    the body of such a loop never returns (`C44_nested_deadlock`, `C44_loop_body_deadlock`).
22. The empty mimetype list is sized wrongly (`C09_empty_list_size_wrong`); the `full_url` setter is
    not atomic (`C16_set_full_url_not_atomic`); `read(0)` of the decompressing reader raises
    (`C24_read_zero_raises`); `get_offset` before reading the information byte raises
    (`C23_offset_needs_infobyte`); the blob of an entry source ignores the requested size
    (`C52_entry_ignores_size`).
23. The translator raises for an archive without redirects or without a main page
    (`C69_no_redirects`, `C69_no_mainpage`).
24. Between two flushes, which of several items with the same url wins depends on the strategies they
    went to, not on the order of adding (`C71_full_fails`).
25. `get_metadata_keys` does not flush, while `get_metadata` does: keys set since the last flush are
    missing (`C72_keys_pending`).
26. `read(start=…)` and `iter_read(start=…)` of an entry without `end` raise `TypeError`
    (`C74_open_end_raises`).
27. Adding an item again with a title of another length makes redirects to it lead to the entry before it
    (`C75_full_fails`); if it is the first entry of the archive, the flush raises `ValueError`.
28. A redirect that is buffered while nothing else is unsaved is ignored by the next flush: it is not
    written, and there is no `UnresolvedRedirect` (`C75_flushed_fails`).
29. Until the next flush the file on disk is inconsistent after additions: the indices in existing redirects are
    changed at once (`C76_redirects_fail`), and a replaced item can be read neither in its old nor in its new
    form (`C76_replacing_fails`).
30. `Zim.open(path, mode="x")` empties a file that another process creates during the call
    (`C80_exclusive_fails`).
31. `Zim.open(…, offset=…)` ignores the offset (`C80_offset_ignored`).
32. If more clusters are modified than fit into the cluster cache, `set_content` succeeds but the content is lost
    (`C82_lost`); adding a cluster raises `KeyError` then, and so do all later flushes (`C82_add_fails`).
33. `close` does not flush an archive if its only changes are to clusters in the cache (`C82_close_loses`).
34. `get_checksum` and `calculate_checksum` ignore the offset at which the archive starts (`C83_checksum`).
35. The list of all titles of an archive of version 6.1 or 6.2 that is not stored in an entry is read without adding
    this offset (`C83_old_titles`).
36. `flush` writes the checksum and cuts the file without adding this offset, which destroys the end of the archive
    (`C83_flush_cuts`, `C83_flush_loses`).
37. A flush that ends between writing the cluster pointer list and writing the header leaves a file that cannot be
    opened (`C84_fails`): the new list may overwrite the old one, to which the header still points.
38. If items wait to be written while `set_mainpage_url` is given a page that is in the archive already, the next flush may
    make one of these items the main page (`C85_full_fails`): the index of the main page is not shifted if an entry is
    inserted exactly there.
39. Removing an item that is no article damages the list of articles: the articles behind it are replaced by the entries
    that follow them (`C86_full_fails`). With `blob="remove"` the other contents of the cluster are mixed up or lost
    (`C86_blob_removed`; the documentation warns of this).
40. An archive without the entry `M/Counter` cannot be opened for reading with the default policy: the counter tries to add
    this entry, which raises `NonMutable` (`C88_without`). With `counter="load"` it raises `NoCounter`, where the
    documentation promises that there is no counter then.
41. A redirect whose title is its url gets the title of its target when it is translated (`C89_fails`):
    `ZimTranslator.handle_redirect` passes no title for it, and `Zim.add_full_url_redirect` takes the title of the target then.
42. If the url of the fulltext index leads to a redirect, then `get_search` raises `AttributeError`
    (`C90_redirect_raises`); if the index is in a compressed cluster, the library is told to read it at an offset that is
    only right in the uncompressed data (`C90_compressed_fails`). Not modelled: `XapianSearch` moves the position of the
    shared file when it seeks in the duplicated descriptor.
43. `iter_entries` and `iter_articles` raise `AssertionError` for bounds behind the end, where the documentation promises
    the behavior of a slice (`C91_outside`). `iter_clusters` does not visit clusters that were written since the last
    flush (`C91_new_cluster_missed`).
44. Setting the title of an item to which a redirect leads raises `ValueError` if the size of the entry changes, after the
    entry was removed: it is lost (`C92_target_lost`). The mimetype of a redirect can be set, after which the redirect can
    not be found any more (`C92_redirect_lost`).
45. Setting the url of an item to which a redirect leads raises `ValueError`, too, after which the item is lost and the
    redirect leads to another item (`C93_target_lost`). Setting it to the url of another item is not refused: both have the
    same url then (`C93_taken`, as in 9).
46. `lzma.filters` can only be used with raw data: the decompressor is created with the filters as well, which raises
    `ValueError` for other formats (`C95_lzma_filters_fail`). With pyzstd, `zstd.option` can not be used: the decompressor is
    created with it as well, which raises `TypeError` (`C95_pyzstd_option_fails`). The option that is documented as `zdict`
    is ignored, the code uses `zlib.zdict` (`C95_zdict_ignored`).
47. With `LOW_RAM_DECOMP_POLICY` an archive without the list of the titles of articles can not be opened: `new` of the list on
    disk raises `OperationNotSupported` (`C96_no_list`). If the list is in a compressed cluster, it is read at the offset it
    has in the uncompressed data (`C96_compressed_fails`). `entry_at_url_is_article` raises `IndexError` in every
    archive with articles (`C96_is_article_raises`): `get_by_pointer` uses the list in memory, which is empty.
48. Processors are called for the entries a search compares with as well: if `after_entry_get` returns entries with other
    urls, the archive is searched by these, in a list that is not sorted by them (`C97_url_fails`). A processor that counts how
    often entries are got counts these, too.
49. If adding a buffered redirect raises an error, then the redirects that wait behind it are forgotten, as
    `OperationBuffer._apply_redirects` empties the list before it adds them: `flush` raises, and when it is called once more, it
    succeeds, without these redirects (`C98_full_fails`, with a redirect whose namespace takes two bytes).
50. If there are no unsaved changes, `flush` calls `before_flush` of the processors, but neither `after_content_flush` nor
    `after_flush` (`C99_clean`). `close`, which can be called several times, calls `before_close` and `after_close` each time
    (`C99_close_again`).
51. `remove` of an entry uses the current full url of the object: if its url was set, but the object was not flushed, the entry
    that has the new url is removed, with the redirects to it, and the entry the object was read from stays
    (`C102_renamed`, `C102_full_fails`).
52. The constructors of entries accept urls and titles with a zero byte, which the setters refuse: such a redirect is read with
    a shorter title (`C103_full_fails`), such a page with another url and the rest of the url as its title (`C103_zero_url`).
