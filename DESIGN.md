# Formal model of the `ntfs` crate (v0.4.0) in Lean 4

## Layout

* `lean/Verif/Model/*.lean` - the model, function by function. Every definition cites the file and lines of
  `/repo` it follows, and says where it simplifies.
* `lean/Verif/Spec/*.lean` - small specifications that do not use the model's helpers.
* `lean/Verif/Lemmas/*.lean` - auxiliary lemmas and larger example data (`Ex*.lean`).
* `lean/Verif/Props/*.lean` - the property theorems (named `Cnn_...`), with concrete instances (`example`)
  of their hypotheses beside them.
* `properties.jsonl` - the properties in words. `MANIFEST.json` - status and theorem names per property.
* `AXIOMS.md` - the axioms of every property theorem, as collected by Lean.
* `seeded/LOG.jsonl` - wrong programs the theorems were tested against.

## Modelling conventions

* Bytes are `UInt8`, byte strings `List UInt8`. Machine integers are `Nat`/`Int` with the range checks of the
  Rust code written out; `usize` is 64 bit. Where the Rust code uses a plain `+` that can overflow, the model
  yields an explicit `panic` (debug profile, or overflow checks on); where it cannot overflow this is proved
  or noted beside the definition.
* `Result` is `Res`: `ok`, `err e`, `panic p`, or `diverge`. Indexing or slicing out of range, a failing
  `unwrap`, `assert!` and arithmetic overflow give `panic`. `diverge` means that
  the fuel of a loop was used up. The theorems that reach a fuelled loop state how much fuel suffices (for
  `read_exact` on the device the fuel is computed and always suffices), or that none does (C27).
* `&mut self` becomes an additional result; on an error the state at the point of the error is returned,
  exactly as Rust leaves it.
* The device (`T: Read + Seek`) is an image (byte list), a seek position and a *schedule*: a list of answers
  chosen by the environment, one per device call - an I/O error, or an upper bound on the bytes delivered
  (short reads). When the schedule is used up the device answers in full. The theorems quantify over all
  schedules. Built in, and so assumed of the real reader: the contents do not change, a read of n>0 bytes
  before the end of the image delivers at least one byte, a failing call changes neither the position nor the
  buffer, and only finitely many calls fail or are short. `Dev.Ok img d` says: the image is `img` and no call fails; short reads
  remain arbitrary. C05, C07, C15, C16, C42, C43 and C54 are about failing devices.

## Properties

"exact" means that the outcomes named in the theorem (value, error, panic) are characterised completely, usually
by an iff. The hypotheses under which a property is proved are summarised per property in `MANIFEST.json`.

| Id | What is modelled | How it is proved | Status |
|----|------------------|------------------|--------|
| C01 | data-run iterator, data run, stream state, value read/seek | refinement to an abstract flat file, invariant by induction over the operations | proved |
| C02 | resident value, `seek_contiguous` | refinement, induction over the operations | proved |
| C03 | attribute-list value (stitching connected attributes) | refinement, induction over entries | proved |
| C04 | `seek_contiguous`, `simplify_seek`, `optimize_seek` | decision logic over the full integer range | proved |
| C05 | explicit caller buffers | invariant for every schedule, also failing ones; values behind an attribute list too | proved |
| C06 | `read_exact` | induction on the remaining buffer | proved |
| C07 | `read_exact` with `Interrupted` | negation by witness; exact law over every failing device by induction on the retries (`C07_interrupted_partial`), and the condition under which the bytes are right (`C07_contiguous_partial`) | partial |
| C08, C09 | data-run iterator | round trip with an encoder spec in both directions; exact step | proved |
| C10, C11 | same | negations by witness; exact law of the code, for C10 the errors of all later calls (`C10_too_big_partial`) | partial |
| C12-C14 | `Record::fixup` | round trip with a protection spec, torn writes; panic condition | C14 partial |
| C15, C16 | BPB, boot sector, `Ntfs::new` | iff with a boot sector spec for the accepted ones and iff with the first error and its fields for the refused ones, all device behaviours | proved |
| C17 | `Ntfs::file`, `NtfsFile::new` | equational over C01; witness for straddling records | partial |
| C18-C22 | attributes, raw iterator, resident lookup | induction over the chain of attributes; exact | C19, C21 partial |
| C23, C24 | `NtfsAttributes::next`, attribute list entries | refinement to a grouping spec; round trip | proved |
| C25-C27 | index entries iterator, finder | induction over trees; cycles for every fuel; on arbitrary images a potential over the stack of nodes, weighted by the number of records below a record, shows that only cycles hang | C27 partial |
| C28-C30 | index entry, node, record, root, allocation | round trip, exact panic conditions | C29 partial |
| C31-C33 | upcase table, comparison, directory find | order laws; composition with C26 | proved |
| C34, C35 | time | arithmetic; negations | partial |
| C36, C37 | file reference, LCN, VCN, positions | arithmetic | proved |
| C38 | structured values | layout equations, exact | proved |
| C39, C40 | `data_position`, also of split values | corollary of the C01 invariant, and of the C03 invariant for split values; witness for resident values | C40 partial |
| C41 | several values on one device | results independent of the device position | proved |
| C42, C43 | failing operations, truncated devices | negations; partial theorems; for C43 the exact law: a refinement to a file whose missing bytes are passed over (`C43_passed_over_partial`), for runs anywhere | partial |
| C44 | `SectorReader` of the example | trace of inner accesses; negations | partial |
| C45 | GUID display | exact form; negation | partial |
| C46-C48 | data stream, name and directory lookups of a file | induction over the flattened attribute sequence; exact | proved |
| C49 | arithmetic of runs | panic freedom; negation | partial |
| C50, C51 | grouping of list entries | negations; when attributes stay apart | partial |
| C52 | iteration over all index records | induction over the records | proved |
| C53 | copy loop of `get` | refinement to the flat file of C01-C03 | proved |
| C54 | everything that uses a device | comparison of each run with the run on the healed device | proved |
| C55, C56 | `info`, `volume_info`, `volume_name`, `best_file_name` | exact, over C22 and C47 | proved |
| C57 | `cd` and the prompt of the shell | induction over sessions; negation on a complete volume | partial |
| C58 | splitting of the command line, `file:stream`, record numbers, UTF-16 | grammar spec, iff; round trips | proved |
| C59 | start, `dir`, `cd`, `get`, `parse_file_arg` of the shell, over a plain reader | composition of all layers; a complete example volume | partial: over a plain reader; C60 carries it over to other readers |
| C60 | every operation as a program of requests; `BufReader<SectorReader<File>>` of `main` | each run over an honest reader is simulated by a plain device with a chosen schedule, then C54 | proved |
| C61 | the same stack at the end of the image | exact condition for each request; negations | partial: the last 8192 bytes cannot be read |
| C62 | `fileinfo`, `fsinfo` as lists of lines | induction over the flattened attributes; the description is shown to be unique | proved |
| C63 | `attr`, `attr_runs` as lists of lines | induction over the attributes of the record, the entries of the list and the data runs; the description is shown to be unique; the run lines are tied to C01 | proved |
| C64 | the main loop of the shell: reading of a line, every command, prompts, messages, errors, files on the host | grammar spec of a line (iff); induction over the lines of a session; composition with C57, C59, C60, C62 and C63, per command | proved |
| C65 | every operation and command, on devices that split their answers in any way | each operation is shown to be settled by the image (`Rep.settled`), with a ghost measure for the loops of `read`; negation for a single data run | proved |
| C66 | where `get` puts its output file | the condition for the current directory (iff) over all sessions; negation for every `get /N` | partial |
| C67 | ended iterators | each iterator: after `None`, any number of further calls gives `None`, with the same state and device; reachable states of the index iterator by an invariant | proved |
| C68 | calls after a failed call | list entries: every call is the healthy one or a reported failure that leaves the state alone, by the C54 and C65 frameworks; index: invariant on the stack of nodes, with the subtrees still to come; attributes: simulation against the iterator on a working device, with one lost result per failure; split values: what no operation changes, and the seek backwards that starts from it; negations on concrete images | partial |
| C69 | attached values, the conversions of errors, and the provided methods of `std::io::Read` and `Seek` on them | refinement to an in-memory file for histories of standard library calls, over any choice of buffer sizes; C54 framework for failing readers; negation for `Interrupted`, and beside it the exact law: what `read_to_end` collects is a sublist of the bytes passed | partial |
| C70 | all operations of the library except the two searches through an index | invariants (`Sane`) of every handle that the API gives out, over arbitrary devices; measures for the loops | proved |
| C71 | the messages of all errors | unique parsing: delimiters of the arguments, texts distinct by computation on the 48 format strings, injective formats; the whole texts against the documented format strings (`C71_template`); exact messages about sizes; negations | partial |
| C72 | references, index entries and list entries leading to files | the number is the low 48 bits; a stored record is loaded; the sequence number has no influence; negations | partial |
| C73 | attribute lists in the record and in clusters, arbitrary contents | refinement of both forms to one parser over bytes, by induction on the calls; negation | partial |
| C74 | the `bitflags!` tables, `Display` of flags, the accessors that return flags | the printed words are the names of the set bits, by induction on the table; injectivity | proved |
| C75 | the text of `dir`, `attr`, `fileinfo`, `fsinfo`, line by line | lines read back, cells and labels hold the values, alignment, injectivity by cutting at bars and labels; negation | partial |
| C76 | from a listed name through the typed line, `read_line` and UTF-16 to the entry | round trip of UTF-16 (iff), lines and arguments (iff), then the commands of C64; the other names; negation | partial |
| C77 | every `position` and every error that carries one, against the bytes of the device | `FoundAt` carried through record, attribute, runs, node, list and the whole index iteration; one lemma per function for its errors; three negations | partial |
| C78 | every operation run on two devices that behave alike and agree on a set of places | relational calculus `On` (same result, devices still agree, result has the invariant), carried through every function up to the main loop of the shell; the places are those of boot sector, records and clusters | proved |
| C79 | the calls of `seek` and `read` that the operations make on a device that answers in full | the schedule of answers of the device is used up by exactly the stated number (`Dev.Used`); induction over histories, runs, and the levels and nodes of the tree. File records, index records and reads of values issue the same calls in model and code. Not counted: `Ntfs::new` and structured values, whose headers binrw reads field by field and the model in one call; values through attribute lists | proved |
| C80 | every call on every handle that can be got from a volume (`Use.Call`, `Use.Obtained` in Props/C80_Panics.lean), against conditions on the bytes (Spec/Harmless.lean) | an invariant for each kind of handle, kept by each call on a device with any answers (`StM.Tame`); induction over how a handle was obtained; a checker with soundness proof for the example volume | proved |
| C81 | the whole shell, from opening the volume to the end of the session (Model/Shell*.lean) | the handles that the shell keeps are obtained in the sense of C80, so every command is free of panics on them; entries that a traversal yields are not last ones, by an invariant of its stacks; the stack of directories has always two elements more than the path has backslashes | proved |
| C82 | the whole shell, as in C81 | each loop of each command is bounded by the sizes of C70; searches and listings by the bound of C27, which depends on the sizes only, so that one bound serves all images; the number of rounds does not change what `directory_index` returns, so in a looping directory no number suffices (`C82_hangs`) | partial: false for indexes with a cycle |
| C83 | values of non-resident attributes, in one record or split over several, against contents with zeros beyond the initialised size (`initialised` in Props/C83_Initialised.lean) | C13 gives what is read; the exact condition follows because a value is determined by its reads (`Attr.Opens.unique`); that the field is unused is a statement about two records, by the ranges of bytes that each accessor reads (`Attr.unused`) | partial: false where the clusters hold other bytes than zeros |
| C84 | the same values, against contents that are decompressed unit by unit (LZNT1, Spec/Lznt1.lean) | as C83; the bytes of the extents are those of the clusters of the units | partial: false where a unit is compressed |
| C85 | release versions of the functions with unchecked additions (Model/Release.lean) and of what calls them when files and values are opened and split values are read (Model/ReleaseOps.lean) and when attributes are iterated, directories opened and listed, and names looked up (Model/ReleaseIndex.lean), beside the debug versions of the rest of the model | agreement passed along `bind` and the loops; case distinctions up to `read`, induction over the rounds of the loop and over histories; C49 for the values that cannot stop; C25 and C33 for directories; invariant of the iterator for the index records | partial: false for runs beyond 2^64, records of 16 MiB and more, and index records whose sizes wrap |
| C86 | values split over records, against their parts at the first clusters that the list gives (`ByVcn` in Props/C86_Parts.lean); file records that differ in the reference to their owner | C03 gives what is read; lengths of the parts by induction; that a field is unused is a statement about two records, by the ranges of bytes that each accessor reads and induction over the attributes of the record | partial: false for lists that are not in order, and for records of other files |
| C87 | the functions that cut a length down to `usize`, as a 32-bit target runs them (Model/Bits32.lean), beside the 64-bit versions | invariant "all runs are below 4 GiB" over all histories for small values; for large ones a simulation like that of C01 in which the remaining length is taken modulo 2^32, then the copying loop of C53; for split values the attribute list and the MFT are taken to be below 4 GiB | partial: false for values or runs of 4 GiB and more |
| C88 | the places of the entries in an index root and an index record with 32-bit sums (Model/Bits32Index.lean), in both builds; for attributes the sums of the 64-bit model | case analysis on the two fields, both directions; bounds from the checks of `Attr.new` | partial: false for offsets and sizes within 24 bytes of 4 GiB |
| C89 | the buffers of opened files, index records and the stack of an iteration, as lengths of the lists in the model | contract of reading (C05) carried through `read_exact`; invariant over all histories of `next` over any devices; stack bounded by the height of records, and by the depth of a stored tree, also when calls fail; induction on the rounds for cyclic indexes | partial: false for record sizes given in clusters, for the size an index root names, and for cyclic indexes |

## Where the code disagrees with a property

Each item is proved as a theorem about the model (name in parentheses). The model follows the code. None of
them has been observed on the running code, which was not built here.

1. Runs stored at LCN 0, and stored runs with a delta of zero, read as zeros instead of their data
   (`C11_negation`; the exact law is `C11_flat_file_partial`).
2. After `LcnTooBig` the iterator has already advanced its previous LCN, so the next call reports another error
   (`C10_negation`).
3. After a read that ends at a run boundary `data_position` still points behind the old run
   (`C39_boundary_negation`); for resident values it starts at the attribute, not at
   its value (`C40_negation`).
4. A read over a missing part of a truncated image reports no error and delivers wrong bytes
   (`C43_negation`).
5. `Interrupted` after partial progress makes `read_exact` skip data (`C07_negation`,
   `C54_interrupted_negation`), and so does `read_to_end` on an attached value (`C69_interrupted_negation`).
6. A seek that fails at a malformed later run leaves the value in another state (`C42_negation`).
7. A read in a run that ends above 2^64 overflows (`C49_negation`); in records of 64 KiB and more the fixup can
   overflow (`C14_negation`).
8. Attribute headers are validated for 16 bytes only, so `value_length` and the value can slice out of range
   (`C21_negation`).
9. `attributes_raw` runs past the used size of the record (`C19_negation`).
10. `Ntfs::file` reads a record that straddles two MFT extents from the wrong place (`C17_negation`).
11. Index records, roots and nodes with crafted sizes panic (`C29_record_negation`, `C29_root_negation`,
    `C29_node_negation`); cyclic subnodes never end (`C27_negation`).
12. `find` does not return the first of several equal entries (`C26_not_first`).
13. List entries of different records with equal instance numbers are merged (`C50_negation`), which can hide
    a stream (`C46_hidden_stream`); a base-record attribute gets only its own runs (`C51_negation`).
14. Leading zeros of GUID groups come out as blanks (`C45_negation`).
15. `SectorReader` drifts by one sector per read, cannot read the last sector, and keeps a wrong position
    after a failed read (`C44_*`).
16. `NtfsIndexRecords::next` does not advance past a bad record (`C52_bad_record`).
17. `get` announces the nominal size although fewer bytes may be written (`C53_short_negation`), and leaves an
    empty output file behind when the stream does not exist (`C59_get_no_stream`); this file then blocks every
    later `get` of that name (`C64_second_get`).
18. `cd ..` cuts the path at the last backslash, also inside a name: after `cd a\b` two `cd ..` empty the
    directory stack and the next command panics (`C57_negation`; in a whole session `C64_panic_negation`).
19. The conversions from `SystemTime` and `OffsetDateTime` disagree: before 1970 only the latter accepts, and
    beyond the 64-bit range the former panics (`C35_negation_before_1970`, `C35_negation_far_future`). Times up
    to 99 ns before 1601 are accepted (`C34_negation` for 1 ns, `C34_accept_partial` for the range).
20. Through `BufReader<SectorReader<File>>` the shell cannot open a volume shorter than 12288 bytes
    (`C61_negation`) nor read data in the last 8192 bytes of any volume (`C61_end_negation`).
21. `get a:b` and `get a_b` write to the same output file (example beside `C58_output`).
22. `get /5` writes to the path `/5` of the host although `help` promises the current directory (`C66_negation`).
23. After a device failure inside a value that is split over an attribute list, reading again skips the part that
    could not be loaded: the value seems to end there, or the bytes of the part after it appear at the wrong position.
    After a failed seek to the start, the same seek succeeds without doing anything, and the read at position 0 gives
    bytes of another part (`C68_value_negation`).
24. After a device failure the index iterator goes on behind the subnode that could not be loaded
    (`C68_index_negation`), and the attribute iterator behind the list entry (`C68_attributes_negation`). If the lost
    attribute is split over several entries, its next part is shown as if it were an attribute of its own.
25. The message of `TotalSectorsTooBig` does not tell the sector count (`C71_total_sectors_negation`). The messages
    about the sizes of index records swap the two sizes (`C71_index_sizes_negation`). An attribute whose length is
    smaller than a header is said to have 16 bytes (`C71_attribute_length_negation`), and the rest of a node that is
    too short for an entry to report 16 bytes (`C71_entry_size_negation`). Volume information that is too short is
    called standard information (`C71_volume_information_negation`), an index root of 20 bytes is said to have 20 bytes
    where 16 were expected (`C71_index_root_negation`), and the two sizes of a file name whose name is too long are swapped
    (`C71_name_length_negation`).
26. `to_file` does not compare sequence numbers, so a stale reference opens another file (`C72_negation`), and a
    reference to a deleted file opens its record (`C72_deleted_negation`).
27. The last entry of a resident attribute list is dropped without an error if it claims more bytes than are left
    (`C73_negation`).
28. The shell prints names as they are stored. A file name with a newline makes `dir` print the text of a directory
    with other files and directories (`C75_dir_negation`).
29. The documentation of `IS_DIRECTORY` says that only file names return it; standard information with this bit
    returns and prints it too (`C74_directory_negation`).
30. A file that `dir` lists cannot be given to the other commands by its name if the name starts with a slash
    (`C76_negation`, `C76_slash`), has white space at an end (`C76_argument`, `C76_unknown`) or an unpaired surrogate
    (`C76_surrogate`), and `get` cannot copy a file with a colon in its name (`C76_colon`). Another file may be opened
    instead.
31. Positions that are off (`C77_negation_root`, `C77_negation_list`, `C77_negation_mismatch`): those of an index root, of its
    entries and of the entries of a resident attribute list leave out the value offset of the attribute, and a mismatch of
    the update sequence number is said to be at the array element, not at the two bytes that the message quotes.
32. `dir` unwraps the key of every entry, and an entry with the key length 0 that is not the last one of its node has none:
    the shell panics (`C81_keyless`, `C81_keyless_negation`). Nothing in the library rejects such an entry.
33. `initialized_size` is never read. A file that was extended but not written reads the former contents of its clusters
    where it should read zeros, so data of deleted files can show up in it (`C83_negation`, `C83_unnoticed`).
34. Compressed values are neither decompressed nor refused: they read as the compressed bytes with zeros for the clusters
    that are not stored (`C84_negation`, `C84_ignored`). A caller can only notice by asking for the flags (`C84_reported`).
35. In a release build the overflows of items 7 and 11 do not stop the program. A run beyond 2^64 delivers the first bytes of
    the volume as file contents (`C85_value_negation`, `C85_wraps`), the fixup can put other bytes of the record at the
    ends of its sectors (`C85_fixup_negation`), and an index record with wrapping sizes is accepted and can appear as a
    node without entries (`C85_record_negation`).
36. `base_file_record` in the file record and the sequence numbers in an attribute list are never read, and `lowest_vcn` of
    an entry is never compared. A list that leads to records of other files shows their attributes as those of the file
    (`C86_owner_negation`, `C86_stale_negation`), and a list with a gap or in another order gives a value with its parts in
    the wrong places (`C86_order_negation`, `C86_exact_partial`).
37. `remaining_len() as usize` and `remaining_data_size as usize` (`non_resident.rs:496`, `:653`) drop the upper half of a
    length on a 32-bit target. A file of 4 GiB is empty there (`C87_empty_negation`), a larger one ends after
    `size % 2^32` bytes without an error (`C87_copy_partial`), and behind a run of 4 GiB or more the bytes are delivered in
    the wrong place (`C87_shift_negation`).
38. On a 32-bit target `entries_range_and_position` (`index_root.rs:82-88`, `index_record.rs:95-101`) overflows for an offset
    near 4 GiB. A debug build stops; a release build takes the header of the node for an entry, where a 64-bit target
    reports the offset or shows an empty node (`C88_root_negation`, `C88_record_negation`).
39. `record_size` (`boot_sector.rs:84-120`) limits exponents "to prevent allocating too large buffers", but not the size in
    clusters, and `index_record_size` of an index root is not limited at all: 512 bytes can ask for a buffer of 254 MiB, an
    index root for one of 4 GiB (`C89_negation`, `C89_root_any`). In a cyclic index the call that never ends (`C27_negation`) also holds
    one more record after every round (`C89_grows`).

Noted while reading, without an own theorem: `get` without an argument tries to create a file with
an empty name, so it does not say that the argument is missing; a line that is not UTF-8 ends the shell with a
panic; a tab after the command does not separate it from its argument; `fileinfo` passes over attributes of
unknown type while `get` reports them.

## Trusted base

* Lean 4.33.0's kernel. No own axioms, no `sorry`, no `native_decide`, no `bv_decide`. The property theorems
  depend at most on `propext`, `Classical.choice` and `Quot.sound`; `AXIOMS.md` lists them per theorem.
* The transcription of the Rust code into the model. The only tie is the citation beside every definition.
* The contracts of external code, marked `External` in `Model/Dev.lean` and `Model/Shell.lean`, or described here:
  * `std`/`no_std_io`: `Read::read_exact` (retries on `Interrupted`), `Seek`, `Cursor`, slices, `u64`
    checked arithmetic, the string functions the shell uses, `Stdin::read_line` (`inputLines` in
    `Model/ShellText.lean`). For attached values also the provided methods
    `Read::read_exact`, `Read::read_to_end` (with any buffer sizes), `Seek::stream_position` and `Seek::rewind`
    (`Model/Attached.lean`).
  * `binrw`/`byteorder`: little-endian fields read with `read_exact`; an error other than I/O does not occur.
  * `enumn`, `bitflags` (`from_bits_truncate` drops unknown bits; `IterNames` and `parser::to_writer` as in
    `Model/Flags.lean`), `memoffset` (offsets of packed structs),
    `arrayvec` (fixed capacity), `derive_more`, `displaydoc` (the doc comment is the format string), and the formats of
    numbers, ranges, byte strings and derived `Debug` in `core::fmt` (`Model/Message.lean`, `Model/Guid.lean`);
    fill, alignment and width of the formats, and `strum`'s `Display` (`Model/ShellText.lean`).
  * `nt-string`: iteration over UTF-16LE code units, lossy decoding.
  * `time`: ranges of `OffsetDateTime` and its nanosecond conversion.
* In C57 and C59 the shell works on the device directly. `main` opens `BufReader<SectorReader<File>>`. C60 proves
  that every operation is a program of requests (a seek to an absolute position, then one read or `read_exact`),
  and what these requests get from that stack. The model of `BufReader` (`Model/Reader.lean`) is a contract of
  external code: capacity 8192; a seek from the start discards the buffer; a read of at least the capacity
  bypasses an empty buffer; `read_exact` is served from the buffer if it holds enough. The C59 theorems that
  start the shell keep the suffix `_partial`; `C60_end_to_end` and `C60_shell` are their versions over any reader
  and over the stack.

## Modelled and not modelled

Modelled: all of `src/` except the items below, `examples/ntfs-shell/sector_reader.rs`, and from
`examples/ntfs-shell/main.rs` everything after the image file was opened: the start, the main loop, all commands,
`best_file_name`, `parse_file_arg`.

Not modelled: `Debug` and `Display` output apart from the GUID, the error messages and the flags; trivial getters, `is_empty`
of detached values, the attached forms of the iterators (they only pass the reader on), the operator overloads of `NtfsPosition` beyond
the one modelled, the forwarding `upcase_cmp` impls; lifetimes and borrow checking; the texts of `help` and of
the messages of the shell, the format of a time; memory exhaustion. The model is a debug build on a 64-bit target; C85 treats the additions that wrap in a
release build, C87 the reading of values on a 32-bit target and C88 the sums of header offsets there
(`attribute.rs:297,360`, `index_record.rs:97`, `index_root.rs:84`). What a 32-bit target does behind an index record whose
sizes have wrapped in a release build is not modelled.

## Reading `seeded/LOG.jsonl`

Each line is one edit of the model in a scratch copy. `theorems_failed` are the declarations at which Lean reported
an error. `property_theorems_depending_on_them` are the property theorems whose proofs use one of those; they could
not be rebuilt. A failing proof shows that the theorems notice the edit, it is not by itself a proof that the claim
became false (see D07). Modules that import a failing one are not rebuilt, so the first list can be incomplete.
