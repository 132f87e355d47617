{"id": "C01", "title": "Non-resident values read and seek like one flat file", "statement": "Let V be the byte string obtained by concatenating the clusters of all data runs of a non-resident attribute in order (a sparse run contributes zero bytes) and cutting the result at the attribute's data size. On any error-free image in which the runs decode and lie inside the device, every sequence of `read` and `seek` calls on the value returned by `NtfsAttribute::value` behaves exactly like the same sequence on an in-memory file with contents V: each read returns the next min(buf.len(), |V|-pos) bytes of V, each seek returns the mathematically expected position or an InvalidInput error that leaves the position unchanged, and no call panics. (Runs stored at cluster 0, or stored with a zero offset to the previous run, are taken for sparse runs and are the subject of C11.)", "quantifier": "every data-run list, every data size, every cluster contents, every finite sequence of reads (any buffer length) and seeks (any SeekFrom), every way the underlying device splits reads into short reads", "why_tests_cant": "The state space (current run, offset in run, iterator state, position) is unbounded and the optimisation that turns Start seeks into Current seeks makes later results depend on the whole earlier history; tests cover a handful of histories on one image.", "anchors": ["src/attribute_value/non_resident.rs: NtfsNonResidentAttributeValue::read, seek, rewind, next_data_run", "src/attribute_value/non_resident.rs: StreamState::read_data_run, seek_data_run, optimize_seek, simplify_seek", "src/attribute_value/non_resident.rs: NtfsDataRun::read, seek"]}
{"id": "C02", "title": "Resident values read and seek like one flat file", "statement": "For a resident attribute value every sequence of `read` and `seek` calls behaves exactly like the same sequence on an in-memory file whose contents are the value bytes; reads never touch the device, and no call panics.", "quantifier": "every value byte string, every finite sequence of reads and seeks with any arguments", "why_tests_cant": "Histories and seek arguments (full i64/u64 range) are unbounded.", "anchors": ["src/attribute_value/resident.rs: NtfsResidentAttributeValue::read, seek, stream_position", "src/attribute_value/mod.rs: seek_contiguous"]}
{"id": "C03", "title": "Values split over an attribute list read and seek like one flat file", "statement": "When a non-resident value is split over several connected attributes of an attribute list, any sequence of `read` and `seek` calls behaves like the same sequence on an in-memory file holding the concatenation of the runs of all connected attributes in list order, cut at the data size reported by the first one. (Runs stored at cluster 0 or with a zero offset are the subject of C11.)", "quantifier": "every list of connected attributes each with at least one data run, every history of reads and seeks, every short-read behaviour", "why_tests_cant": "Crossing attribute boundaries depends on run counts, positions and previous operations; a test image contains one such file with one layout.", "anchors": ["src/attribute_value/attribute_list_non_resident.rs: NtfsAttributeListNonResidentAttributeValue::read, seek, next_data_run, next_attribute, rewind", "src/attribute_value/attribute_list_non_resident.rs: AttributeListConnectedEntries::next"]}
{"id": "C04", "title": "Seek arithmetic is exact", "statement": "`seek` with Start(n), End(n) or Current(n) succeeds iff the mathematically exact target (n, len+n, pos+n over the integers) lies in 0..2^64 and then returns that target and makes it the new position; otherwise it returns an InvalidInput I/O error and the position is unchanged. This holds for resident values, single data runs and non-resident values alike.", "quantifier": "every current position, length and SeekFrom argument over their full 64-bit ranges including i64::MIN", "why_tests_cant": "The interesting cases are wrap-around at the ends of the 64-bit ranges, for every length/position combination.", "anchors": ["src/attribute_value/mod.rs: seek_contiguous", "src/attribute_value/non_resident.rs: StreamState::simplify_seek, optimize_seek"]}
{"id": "C05", "title": "Read touches only the bytes it reports", "statement": "A successful `read` returns n <= buf.len(), overwrites exactly the first n bytes of the buffer and leaves the rest of the buffer as it was; it advances the stream position by exactly n, and the position never passes the data size by reading.", "quantifier": "every buffer length and previous buffer contents, every value state reachable by any history, any device behaviour (short reads, failures)", "why_tests_cant": "Needs every combination of run boundaries, data size cut-offs and short reads.", "anchors": ["src/attribute_value/non_resident.rs: StreamState::read_data_run, NtfsNonResidentAttributeValue::read", "src/attribute_value/resident.rs: read"]}
{"id": "C06", "title": "read_exact is all or error", "statement": "`read_exact` on any value either fills the whole buffer with the bytes of the value starting at the current position, or returns an error; it returns an error iff fewer bytes remain, and that error is UnexpectedEof.", "quantifier": "every value, position, buffer length and short-read schedule of an error-free device", "why_tests_cant": "Quantifies over all short-read schedules and positions.", "anchors": ["src/traits.rs: NtfsReadSeek::read_exact"]}
{"id": "C07", "title": "read_exact survives interrupted reads", "statement": "If the device reports ErrorKind::Interrupted at any point, `read_exact` on a non-resident value still delivers either the right bytes or an error (never silently wrong data). [The code violates this when the interruption comes after part of the same call has been delivered; the proved part covers interruptions before any byte of the call was delivered.]", "quantifier": "every placement of interruptions in the device's answers", "why_tests_cant": "Interruption points are a property of the schedule, not of the input; a test would need to inject each of them.", "anchors": ["src/traits.rs: read_exact (Interrupted is retried)", "src/attribute_value/non_resident.rs: read (error discards bytes_read)"]}
{"id": "C08", "title": "Data-run decoding inverts the on-disk encoding", "statement": "For every list of extents (cluster count, signed nonzero LCN delta or sparse; see C11 for zero) encoded with any legal byte widths, iterating `data_runs()` yields exactly those extents in order: allocated size = count * cluster size, position = (sum of deltas so far) * cluster size, sparse extents without position; then iteration ends, whether the list is ended by a zero byte or by the end of the attribute.", "quantifier": "every list of extents of any length, every choice of byte widths 1..8 that can hold the numbers, any trailing bytes after the terminator", "why_tests_cant": "The encoding is variable length and delta based: errors only appear for particular widths, signs and accumulated LCNs.", "anchors": ["src/attribute_value/non_resident.rs: NtfsDataRuns::next, read_variable_length_*"]}
{"id": "C09", "title": "Data-run decoding is total on arbitrary bytes", "statement": "For an arbitrary byte string, iterating `data_runs()` never panics, every successful step consumes at least two bytes, iteration therefore ends or reports an error after at most len/2 + 1 steps, and after it has ended it stays ended. Headers with a width above 8, a zero count, a truncated field or an overflowing count/LCN are rejected with an error.", "quantifier": "every byte string and cluster size", "why_tests_cant": "Malformed inputs form an unbounded set; fuzzing only samples it.", "anchors": ["src/attribute_value/non_resident.rs: NtfsDataRuns::next"]}
{"id": "C10", "title": "A data-run error is reported again on the next call", "statement": "After `data_runs()` yields an error, the next call yields the same error again (promised by the comment in `next`). [Violated for LcnTooBig: the accumulated LCN is updated before the error is raised, so the second call reports a different error; the proved part covers every other error.]", "quantifier": "every byte string and iterator state that produces an error", "why_tests_cant": "Needs all states of the iterator, including accumulated LCNs near 2^64/cluster size.", "anchors": ["src/attribute_value/non_resident.rs: NtfsDataRuns::next lines 404-424"]}
{"id": "C11", "title": "A run that starts at cluster 0 is read from cluster 0", "statement": "A data run whose on-disk LCN field is present and denotes LCN 0 yields the bytes stored at the start of the volume (this is how $Boot is stored). [Violated: such a run is taken for a sparse run and reads as zeros; the proved part covers runs with nonzero delta and nonzero LCN.]", "quantifier": "every run list containing a run at LCN 0 and every volume contents", "why_tests_cant": "Depends on accumulated deltas cancelling to exactly zero or on the sparse/zero ambiguity; not visible on the test image.", "anchors": ["src/attribute_value/non_resident.rs: NtfsDataRuns::next (vcn.value() != 0)", "src/types.rs: NtfsPosition::new"]}
{"id": "C12", "title": "Fixup restores exactly the bytes that were protected", "statement": "If a record image was produced by the standard multi-sector protection (last two bytes of every 512-byte sector moved to the update sequence array and replaced by the sequence number), reading it with `Ntfs::file` / index record loading recovers the original record bytes exactly, and no byte outside the sector tails is changed.", "quantifier": "every record contents, every record length that is a multiple of 512, every sequence number and update-sequence-array offset that does not overlap a sector tail", "why_tests_cant": "Round-trip law over all record contents and sizes.", "anchors": ["src/record.rs: Record::fixup"]}
{"id": "C13", "title": "Torn multi-sector writes are detected", "statement": "If the last two bytes of any sector covered by the update sequence array differ from the sequence number, the record is rejected with UpdateSequenceNumberMismatch and no record object is returned.", "quantifier": "every record contents and every crash point, i.e. every subset of sectors that did not reach the disk", "why_tests_cant": "Crash points: any subset of sectors may be stale.", "anchors": ["src/record.rs: Record::fixup lines 64-77", "src/file.rs: NtfsFile::new", "src/index_record.rs: NtfsIndexRecord::new"]}
{"id": "C14", "title": "Fixup never panics on arbitrary records", "statement": "`fixup` applied to arbitrary record bytes of at least 8 bytes never panics: it either succeeds or returns an error. [Violated for records of 64 KiB and more with an update sequence offset of 0xFFFE (u16 overflow); the proved part covers all records shorter than 65536 bytes.]", "quantifier": "every byte string of length >= 8", "why_tests_cant": "Arbitrary malformed offsets/counts in the header.", "anchors": ["src/record.rs: fixup, update_sequence_array_start"]}
{"id": "C15", "title": "Boot sector acceptance is exactly the documented condition", "statement": "`Ntfs::new` succeeds on a device iff its first 512 bytes end in 55 AA, the bytes-per-sector field is a power of two in 512..4096, the sectors-per-cluster field denotes a power of two (directly or as negative exponent up to 12) with resulting cluster size in 512..2 MiB, the file record size field denotes a legal size, the MFT cluster is not 0 and does not overflow, and sectors*sector size does not overflow. It never panics.", "quantifier": "every 512-byte boot sector", "why_tests_cant": "2^4096 boot sectors; error priority and boundary values interact.", "anchors": ["src/boot_sector.rs: BiosParameterBlock::*, BootSector::validate", "src/ntfs.rs: Ntfs::new"]}
{"id": "C16", "title": "Geometry reported by an accepted volume is sane", "statement": "After a successful `Ntfs::new`, cluster_size is a power of two in 512..=2097152 and a multiple of sector_size, sector_size is a power of two in 512..=4096, size() equals total_sectors*sector_size without wrap, file_record_size is at least 512, and mft_position() is present and equals mft_lcn*cluster_size without wrap.", "quantifier": "every boot sector that is accepted", "why_tests_cant": "Universally quantified invariant on which all later arithmetic relies.", "anchors": ["src/ntfs.rs: Ntfs::new, cluster_size, sector_size, size, mft_position, file_record_size"]}
{"id": "C17", "title": "Ntfs::file(n) returns the n-th record of the MFT stream", "statement": "On success, the returned file's record bytes are the fixed-up bytes at offset n*file_record_size of the unnamed data stream of the MFT, and its record number is n; numbers whose offset overflows or lies beyond the MFT's allocation are rejected with InvalidFileRecordNumber. [Holds if the record lies within one data run; violated if a record straddles two runs, because the record is read contiguously from the device.]", "quantifier": "every n, every MFT run layout, every device contents", "why_tests_cant": "Depends on fragmentation of the MFT relative to record boundaries.", "anchors": ["src/ntfs.rs: Ntfs::file", "src/file.rs: NtfsFile::new"]}
{"id": "C18", "title": "attributes_raw tiles the record", "statement": "Iterating `attributes_raw()` on any successfully opened file yields attributes that are pairwise disjoint, consecutive, start at the first-attribute offset and lie entirely inside the record; it ends after at most record_len/16 steps at the end marker, the end of the record or the first malformed attribute, and never panics.", "quantifier": "every record contents accepted by Ntfs::file", "why_tests_cant": "Arbitrary length fields; needs induction over the chain of attributes.", "anchors": ["src/attribute.rs: NtfsAttributesRaw::next, NtfsAttribute::new, validate_attribute_length"]}
{"id": "C19", "title": "attributes_raw stays inside the used part of the record", "statement": "`attributes_raw()` does not yield attributes that start at or beyond the used size (`data_size()`) of the file record. [Violated: the iterator only checks the length of the record; the proved part is that it stays inside the record.]", "quantifier": "every record accepted by Ntfs::file", "why_tests_cant": "Stale bytes behind the used size are arbitrary.", "anchors": ["src/attribute.rs: NtfsAttributesRaw::new (items_range.end unused), next"]}
{"id": "C20", "title": "Attribute names and resident values are slices of their own attribute", "statement": "Whenever `NtfsAttribute::name()` succeeds, the name is exactly name_length bytes of the attribute's own bytes starting at its name offset (or empty); whenever a resident value is obtained it is exactly the value_length bytes at the attribute's value offset, entirely inside the attribute. `name()` never panics for any iterated attribute.", "quantifier": "every record and every attribute reached by iteration, arbitrary header fields", "why_tests_cant": "All combinations of offsets and lengths, including overflow of offset+length.", "anchors": ["src/attribute.rs: name, validate_name_sizes, resident_value, validate_resident_value_sizes"]}
{"id": "C21", "title": "Attribute accessors never panic on malformed records", "statement": "`value_length()`, `value()` and `structured_value()` never panic on an attribute yielded by iteration. [Violated: only 16 header bytes are validated, so a 16-byte attribute at the end of the record makes them index out of bounds; the proved part covers attributes whose resident (24) or non-resident (64) header lies inside the record.]", "quantifier": "every record accepted by Ntfs::file", "why_tests_cant": "Requires reasoning about every malformed record.", "anchors": ["src/attribute.rs: value_length, resident_value_length, non_resident_value_data_size, value"]}
{"id": "C22", "title": "Attribute lookup returns the first match", "statement": "Looking up an attribute by type (and optional instance and name) returns the first attribute in record order that matches and, if all attributes parse, returns AttributeNotFound iff none matches.", "quantifier": "every attribute sequence, type, instance and name", "why_tests_cant": "Order/priority over unbounded lists.", "anchors": ["src/file.rs: find_resident_attribute, find_attribute", "src/ntfs.rs: volume_info, volume_name"]}
{"id": "C23", "title": "Flattened attribute iteration", "statement": "Without an attribute list, `attributes()` yields exactly the attributes of `attributes_raw()`. With one, it yields the raw attributes with the attribute-list attribute replaced by one item per group of adjacent list entries with equal type and instance that live in other file records (resident ones individually), each entry loaded from the file record named by its reference.", "quantifier": "every file record and attribute list contents", "why_tests_cant": "Stateful iteration (skip info, list cursor, raw cursor) over arbitrary lists.", "anchors": ["src/attribute.rs: NtfsAttributes::next"]}
{"id": "C24", "title": "Attribute list entries decode", "statement": "Iterating the entries of an attribute list consisting of correctly encoded entries yields exactly those entries (type, lowest VCN, base file reference, instance, name) in order and then ends; on arbitrary bytes each successful step consumes at least 26 bytes so iteration ends, and never panics.", "quantifier": "every list of entries with names of any length 0..255, arbitrary bytes", "why_tests_cant": "Unbounded lists and malformed lengths.", "anchors": ["src/structured_values/attribute_list.rs: NtfsAttributeListEntries::next_resident, next_non_resident, NtfsAttributeListEntry::new, validate_entry_and_name_length"]}
{"id": "C25", "title": "Index iteration is the in-order traversal", "statement": "On a well-formed index, repeatedly calling `entries().next()` yields every keyed entry of the B-tree exactly once, in in-order (subnode of an entry before the entry; subnode of the final entry last), and then ends for good.", "quantifier": "every finite tree shape, any depth and fan-out, balanced or not", "why_tests_cant": "Explicit-stack traversal over unbounded trees; needs a loop invariant.", "anchors": ["src/index.rs: NtfsIndexEntries::next"]}
{"id": "C26", "title": "Index lookup finds exactly the present keys", "statement": "On a well-formed index whose in-order sequence is sorted consistently with the comparison function, `find` returns an entry that compares Equal if there is one (so the very entry if only one compares Equal) and None otherwise; it never returns an entry that does not compare Equal. If several entries compare Equal it is not always the first one in order that is returned (shown by a counterexample).", "quantifier": "every sorted tree shape and every comparison function monotone along it", "why_tests_cant": "Correctness of search over all trees and all keys.", "anchors": ["src/index.rs: NtfsIndexFinder::find", "src/indexes/file_name.rs: NtfsFileNameIndex::find"]}
{"id": "C27", "title": "Index traversal and lookup terminate", "statement": "`entries()` iteration and `find` end after finitely many steps on every image. [Violated: a subnode VCN pointing back to an ancestor makes both run forever; the proved part is termination on acyclic indexes, bounded by the number of entries plus nodes.]", "quantifier": "every image, including ones with cyclic subnode references", "why_tests_cant": "Non-termination can only be refuted/established for all step counts.", "anchors": ["src/index.rs: NtfsIndexEntries::next, NtfsIndexFinder::find"]}
{"id": "C28", "title": "Index node entries decode and stay in the node", "statement": "Iterating the entries of an index node encoded as a sequence of entries ended by a last-entry marker yields exactly those entries with their key bytes, data, flags and subnode VCN; every yielded entry lies inside the node's buffer.", "quantifier": "every list of entries with arbitrary keys, with and without subnodes, arbitrary bytes after the last entry", "why_tests_cant": "Variable-length chains of entries, optional trailing VCN.", "anchors": ["src/index_entry.rs: IndexNodeEntryRanges::next, NtfsIndexNodeEntries::next, NtfsIndexEntry::*"]}
{"id": "C29", "title": "Index nodes never cause a panic", "statement": "Reading an index root, an index record, its entries, or traversing and searching an index never panics for any contents. [Violated: (a) entries offset larger than the used size, (b) an entry length below 13 (a node filled with zeros), (c) index record size below 37, (d) overflow of the header size plus the allocated or used size, (e) the update sequence overflow of C14; the proved part characterises exactly these.]", "quantifier": "arbitrary index root values and index records", "why_tests_cant": "Malformed inputs.", "anchors": ["src/structured_values/index_root.rs: NtfsIndexRoot::new, entries", "src/index_record.rs: NtfsIndexRecord::new, validate_sizes, entries", "src/index_entry.rs: NtfsIndexEntry::new, validate_size"]}
{"id": "C30", "title": "record_from_vcn returns the record that was asked for", "statement": "On success `record_from_vcn(vcn)` returns a record whose header VCN equals the requested one and whose contents are the fixed-up bytes at offset vcn*cluster_size of the index allocation stream; if the stored VCN differs it returns VcnMismatchInIndexAllocation; negative VCNs and overflowing offsets are errors.", "quantifier": "every VCN (full i64 range), every allocation stream contents", "why_tests_cant": "All VCNs and contents.", "anchors": ["src/structured_values/index_allocation.rs: record_from_vcn", "src/index_record.rs: NtfsIndexRecord::new", "src/types.rs: Vcn::offset"]}
{"id": "C31", "title": "Case-insensitive name comparison is a lawful order", "statement": "For a fixed upcase table, `upcase_cmp` is a total preorder (reflexive, antisymmetric up to equality of upcased strings, transitive, total); it reports Equal iff both names upcase to the same UTF-16 sequence, and comparing a with b is the reverse of comparing b with a.", "quantifier": "every upcase table and every pair/triple of names of any length", "why_tests_cant": "Algebraic laws over all strings and all tables.", "anchors": ["src/upcase_table.rs: UpcaseTable::u16_to_uppercase, upcase_cmp_iter"]}
{"id": "C32", "title": "Upcase table loading", "statement": "An upcase table is accepted iff the $UpCase data size is exactly 131072 bytes; looking up any UTF-16 code unit then never panics and returns the little-endian 16-bit value stored at twice that code unit.", "quantifier": "every table contents and every u16 code unit", "why_tests_cant": "65536-entry tables with arbitrary contents.", "anchors": ["src/upcase_table.rs: UpcaseTable::read, u16_to_uppercase"]}
{"id": "C33", "title": "Directory lookup is case-insensitive and complete", "statement": "`NtfsFileNameIndex::find(name)` on a directory index sorted by the upcase order returns the entry whose file name equals `name` up to upcasing if present and None otherwise.", "quantifier": "every directory tree sorted by upcase order, every name, every upcase table", "why_tests_cant": "Combines tree search with the string order.", "anchors": ["src/indexes/file_name.rs: find", "src/index.rs: NtfsIndexFinder::find", "src/upcase_table.rs"]}
{"id": "C34", "title": "Time conversions", "statement": "Converting an NtfsTime to a calendar time and back is the identity for all 2^64 values; converting a calendar time to NtfsTime succeeds iff it is representable (from 1601-01-01 to the end of the 64-bit range), is monotone, and loses less than 100 ns. [Times up to 99 ns before 1601 are accepted as 0 because of truncation toward zero; stated as a partial.]", "quantifier": "all 64-bit timestamps and all nanosecond calendar times", "why_tests_cant": "2^64 values; boundary and rounding behaviour for negative Unix times.", "anchors": ["src/time.rs: From<NtfsTime> for OffsetDateTime, TryFrom<OffsetDateTime> for NtfsTime, TryFrom<SystemTime> for NtfsTime"]}
{"id": "C35", "title": "SystemTime and OffsetDateTime conversions agree", "statement": "For every instant representable as both SystemTime and OffsetDateTime, both TryFrom conversions give the same NtfsTime or both fail. [Violated for instants before 1970 (SystemTime conversion fails) and for far-future instants (overflow panic); partial: agreement for all instants from 1970 on whose seconds are below 2^63/10^7.]", "quantifier": "all instants with nanosecond precision", "why_tests_cant": "Unbounded range with overflow boundaries.", "anchors": ["src/time.rs: TryFrom<SystemTime>, TryFrom<OffsetDateTime>"]}
{"id": "C36", "title": "File references split losslessly", "statement": "For every 8-byte file reference, file_record_number is its low 48 bits and sequence_number its high 16 bits; the two together determine the reference.", "quantifier": "all 2^64 references", "why_tests_cant": "All bit patterns.", "anchors": ["src/file_reference.rs: file_record_number, sequence_number"]}
{"id": "C37", "title": "Cluster and position arithmetic never wraps silently", "statement": "LCN + VCN and LCN -> byte position and VCN -> byte offset return the exact mathematical result or report failure (None / LcnTooBig / VcnTooBig) iff it is not representable; adding to an absent position stays absent.", "quantifier": "all 64-bit LCNs, VCNs (including i64::MIN) and cluster sizes", "why_tests_cant": "Full 64-bit ranges.", "anchors": ["src/types.rs: Lcn::checked_add, Lcn::position, Vcn::offset, Add for NtfsPosition"]}
{"id": "C38", "title": "Structured values decode their documented layout", "statement": "Standard information, file name, volume information, volume name, object id and index root values decode each field from its documented little-endian offset, for every byte string long enough; shorter byte strings give an InvalidStructuredValueSize error (or the documented optional field is absent), never a panic.", "quantifier": "every value byte string", "why_tests_cant": "All contents and lengths.", "anchors": ["src/structured_values/standard_information.rs", "src/structured_values/file_name.rs", "src/structured_values/volume_information.rs", "src/structured_values/volume_name.rs", "src/structured_values/object_id.rs"]}
{"id": "C39", "title": "data_position points at the byte that is read next (non-resident)", "statement": "After any seek of a non-resident value to a position inside the allocated runs from a freshly created value, data_position() is the absolute device address of the byte at that stream position, or None iff that byte lies in a sparse run; beyond the allocation it is None.", "quantifier": "every run list and target position", "why_tests_cant": "All run boundaries.", "anchors": ["src/attribute_value/non_resident.rs: StreamState::data_position, NtfsDataRun::data_position"]}
{"id": "C40", "title": "data_position points at the byte that is read next (resident)", "statement": "For a resident value, data_position() is the absolute device address of the value byte at the current position. [Violated: it is computed from the start of the attribute, not the start of the value, so it is too small by the value offset; the proved part gives the exact deviation.]", "quantifier": "every resident attribute and position", "why_tests_cant": "All offsets.", "anchors": ["src/attribute_value/resident.rs: data_position", "src/attribute.rs: resident_value (passes self.position())"]}
{"id": "C41", "title": "Values can be read in alternation", "statement": "Two or more values of one volume read in any interleaving over the same device return exactly what each returns when read alone: results do not depend on the device's seek position left behind by other operations.", "quantifier": "every interleaving of read/seek operations on any number of values", "why_tests_cant": "Schedules: number of interleavings is unbounded.", "anchors": ["src/attribute_value/non_resident.rs: NtfsDataRun::read (seeks before every read)", "src/file.rs: NtfsFile::new"]}
{"id": "C42", "title": "A failed operation does not corrupt later reads", "statement": "If a `seek` or `read` fails with an I/O or format error, later successful operations still return the right bytes for their position. [Violated: a seek that fails on a malformed later data run leaves the old stream position with the new run (C42_negation). Proved: device failures of any kind, anywhere in the middle of an operation, never corrupt later operations.]", "quantifier": "every history containing a failing operation, every failure point", "why_tests_cant": "Crash/failure points in the middle of a multi-step operation.", "anchors": ["src/attribute_value/non_resident.rs: seek, read, rewind"]}
{"id": "C43", "title": "Truncated images do not shift data", "statement": "If part of a run lies beyond the end of the device, reading the value never returns bytes of a later run at the stream position of the missing ones. [Violated: a zero-length device read is treated as end of run; the proved part requires that all runs lie inside the device.]", "quantifier": "every run list and truncation point", "why_tests_cant": "Every truncation point.", "anchors": ["src/attribute_value/non_resident.rs: StreamState::read_data_run (bytes_read_in_data_run == 0)"]}
{"id": "C44", "title": "The sector reader issues only aligned accesses and returns the right bytes", "statement": "Over the shell's SectorReader every access to the inner device is at a multiple of the sector size and of a multiple of the sector size in length, and a read that directly follows a seek returns the bytes at that position. [Violated for consecutive reads without a seek (one sector is skipped) and for aligned reads that end at the end of the device (an extra sector is requested); proved as partial.]", "quantifier": "every sector size, position, buffer length, device contents and operation history", "why_tests_cant": "Histories and alignments are unbounded.", "anchors": ["examples/ntfs-shell/sector_reader.rs: SectorReader::read, seek, align_*"]}
{"id": "C45", "title": "GUID formatting is canonical", "statement": "The Display form of a GUID is 36 characters: uppercase hex groups 8-4-4-4-12 that determine the GUID. [Violated: leading zeros are printed as blanks for groups 1-3; partial: length is always 36 and groups are zero-padded whenever the leading digit is nonzero; the form still determines the GUID.]", "quantifier": "all 2^128 GUIDs", "why_tests_cant": "All values.", "anchors": ["src/guid.rs: Display for NtfsGuid"]}
{"id": "C46", "title": "Default data stream and named streams lookup", "statement": "`NtfsFile::data(\"\")` returns the first attribute of type $DATA with an empty name, `data(name)` the first whose name equals `name` up to upcasing; None iff none exists, an error iff an attribute before the match fails to parse.", "quantifier": "every attribute sequence and name", "why_tests_cant": "Unbounded lists.", "anchors": ["src/file.rs: NtfsFile::data"]}
{"id": "C47", "title": "File name lookup with filters", "statement": "`NtfsFile::name(ns, parent)` returns the first $FILE_NAME whose namespace and parent record number match the given filters (an absent filter matches everything) and None iff there is none.", "quantifier": "every sequence of attributes and every filter combination", "why_tests_cant": "Unbounded lists.", "anchors": ["src/file.rs: NtfsFile::name", "src/structured_values/file_name.rs"]}
{"id": "C48", "title": "Opening the root directory index picks the right attributes", "statement": "`directory_index` fails with NotADirectory iff the directory flag is clear; otherwise it uses the first $INDEX_ROOT named $I30 and, iff the root is marked large, the first $INDEX_ALLOCATION named $I30.", "quantifier": "every file record", "why_tests_cant": "Arbitrary attribute sequences.", "anchors": ["src/file.rs: directory_index", "src/index.rs: NtfsIndex::new"]}
{"id": "C49", "title": "Reading and seeking a non-resident value never panics", "statement": "For every byte string in the data-run area, every declared size and every device behaviour, opening a non-resident value and any history of reads and seeks on it never panics and always returns. [Violated: a run ending above 2^64 overflows `position + stream_position` (C49_negation). Proved when every decoded run ends at or below 2^64.]", "quantifier": "every data-run byte string, size, device image, device failure schedule and operation history", "why_tests_cant": "Adversarial byte strings combined with arbitrary histories; overflow needs extreme LCNs.", "anchors": ["src/attribute_value/non_resident.rs: NtfsDataRun::read, StreamState"]}
{"id": "C50", "title": "Flattened iteration keeps different attributes apart", "statement": "Two intact attributes with different names that an attribute list names (in any file records) are shown by `attributes()` as two items. (Violated: adjacent non-resident entries with equal type and instance number in different file records are taken for one value.)", "quantifier": "every attribute list", "why_tests_cant": "Depends on instance numbers coinciding between file records; ordinary images rarely show it.", "anchors": ["src/attribute.rs: NtfsAttributes::next"]}
{"id": "C51", "title": "Values that start in the base record", "statement": "If the first part of a non-resident value is described in the base record and further parts in other records (as the attribute list says), `attributes()` shows it as one attribute whose value is the whole value. (Violated: the attribute of the base record is shown without the other parts, so its value ends early, and the other parts are shown as a separate attribute.)", "quantifier": "every file record with an attribute list", "why_tests_cant": "Needs a very fragmented file; the shortened value gives no error.", "anchors": ["src/attribute.rs: NtfsAttributes::next, NtfsAttribute::value"]}
{"id": "C52", "title": "Iteration over all index records", "statement": "`NtfsIndexAllocation::records(size)` shows every index record of the allocation exactly once, in stream order, fixed up, and then ends for good. When a record does not carry the index signature or is cut off, every further call reports that error and no later record is shown.", "quantifier": "every index allocation value (plain or split over an attribute list), every number of records, every device schedule without failures", "why_tests_cant": "The iterator moves a stateful seek position over arbitrary fragmented streams; the number of records is unbounded.", "anchors": ["src/structured_values/index_allocation.rs: NtfsIndexAllocation::records, NtfsIndexRecords::next"]}
{"id": "C53", "title": "Copying a value with a loop of reads gives exactly its bytes", "statement": "The read loop of the example shell's `get` (read into a fixed buffer, write what was returned, stop at 0) terminates for every attribute value (resident, non-resident, attribute-list) and every non-empty buffer, writes exactly the bytes of the value from the current position to its end, and leaves the value at its end, however the device splits its answers.", "quantifier": "all values, all contents, all buffer sizes > 0, all start positions, all chunkings of the device", "why_tests_cant": "Depends on every combination of buffer size, fragment boundaries and partial reads of the device; a test fixes one of each.", "anchors": ["examples/ntfs-shell/main.rs:526-535", "src/attribute_value/mod.rs:130-150"]}
{"id": "C54", "title": "A failing device is reported or harmless", "statement": "On a device that fails at arbitrary calls with errors other than Interrupted, every operation of the library (opening the volume, files, attributes, values, structured values, indexes, lookups, reads, seeks) either reports one of the device's own errors unchanged, or does exactly what it does on a device with the same contents where those calls succeed: it never turns a device failure into a wrong result, another error, a panic or a silent end. The file written by the shell's `get` is always a prefix of the right one, and complete unless the failure is reported.", "quantifier": "all operations, all images, all sequences of device answers and failures", "why_tests_cant": "A fault can occur at any of the calls of any operation; the number of fault schedules is unbounded.", "anchors": ["src/ntfs.rs:60-300", "src/file.rs:100-400", "src/attribute.rs:480-760", "src/attribute_value/attribute_list_non_resident.rs:80-300", "src/index.rs:60-330"]}
{"id": "C55", "title": "Volume label, volume version and standard information come from the first matching attribute", "statement": "`NtfsFile::info`, `Ntfs::volume_info` and `Ntfs::volume_name` return a value exactly if the first attribute of the wanted type in the (base) file record is resident, its value lies inside the attribute and has an admissible size; the result is field for field what the bytes of that value say. `volume_name` returns None exactly if the record of $Volume has no $VOLUME_NAME attribute before the end of its attributes, and never because of an error.", "quantifier": "all file records, all contents, all devices", "why_tests_cant": "Records are arbitrary byte strings; the decision which attribute is taken and when the answer is None or an error ranges over all of them.", "anchors": ["src/ntfs.rs:173-197", "src/file.rs:352-402", "src/file.rs:426-428"]}
{"id": "C56", "title": "The shell shows the most preferred name of a file in its directory", "statement": "`best_file_name` returns, among the names the file has in the given directory, the first one of the most preferred namespace (Win32, then Win32AndDos, then any). Whatever it returns has this property even if other attributes are damaged. If all attributes can be loaded and decoded, the name is found, and the file is reported as having no name exactly if it has none in that directory. An error is returned exactly if the search for a Win32 name meets one first.", "quantifier": "all files, all sequences of attributes including attribute lists, all directories", "why_tests_cant": "The number, order, namespaces and parents of the names are unbounded, and the three searches interact with errors in between.", "anchors": ["examples/ntfs-shell/main.rs:210-240", "src/file.rs:435-480"]}
{"id": "C57", "title": "The prompt of the shell stands for the directory stack", "statement": "In every sequence of `cd` commands the path shown by the example shell has exactly one component for every directory below the root on the directory stack; `cd ..` goes up by one directory and one component and does nothing exactly in the root; an error leaves the shell as it was; there is always a current directory, so no command panics for lack of one.", "quantifier": "all sequences of commands, all volumes, all device behaviours", "why_tests_cant": "Sessions and directory trees are unbounded, and names are arbitrary UTF-16 strings read from the volume.", "anchors": ["examples/ntfs-shell/main.rs:67-107", "examples/ntfs-shell/main.rs:242-298"]}
{"id": "C59", "title": "From the bytes of a volume to the bytes of a file", "statement": "On every volume with a supported boot sector, an MFT stored in any runs, an upcase table and a root directory, the example shell starts; `dir` shows every entry of the directory in order; a name, in any case, stands for the file its entry refers to, and a name that is in no entry is reported; `/number` stands for the record with that number; `cd` enters the directory; and `get` writes exactly the bytes of the named stream, whatever its run layout, reporting its nominal size. [Proved over a plain reader only: the SectorReader and BufReader that main places under the library are left out, and SectorReader is not transparent (C44).]", "quantifier": "all volumes of that kind, all trees, names, streams, run layouts, and all splittings of reads by the device", "why_tests_cant": "It composes every layer of the library (boot sector, MFT runs, fixup, attributes, attribute lists, index trees, upcase comparison, data runs, copy loop) for unbounded volumes.", "anchors": ["examples/ntfs-shell/main.rs:42-66", "examples/ntfs-shell/main.rs:242-326", "examples/ntfs-shell/main.rs:487-538", "examples/ntfs-shell/main.rs:627-668", "src/ntfs.rs:56-171"]}
{"id": "C58", "title": "The shell reads a line as it was meant", "statement": "However much white space surrounds a command and its argument, the shell separates them at the first blank and hands over the argument unchanged, with inner blanks; `file:stream` is split at the first colon; a record number is accepted iff it is a decimal numeral or, after 0x, a hexadecimal numeral below 2^64 and then is that number; a name survives the conversion to UTF-16 and back, and different names have different code units.", "quantifier": "all lines, names, streams and numerals of any length", "why_tests_cant": "The strings are unbounded, and acceptance is an equivalence over all of them.", "anchors": ["examples/ntfs-shell/main.rs:78-81", "examples/ntfs-shell/main.rs:492-495", "examples/ntfs-shell/main.rs:636-650"]}
{"id": "C60", "title": "Results do not depend on the reader", "statement": "Over any reader that keeps the promises of Read and Seek, each operation of the library and of the shell returns what it returns over a plain device with the same bytes, or reports an error that the reader gave; `get` and `dir` have then written a beginning of what they would have written. The stack BufReader<SectorReader<File>> that the shell sets up is such a reader, although SectorReader alone is not.", "quantifier": "all images, all readers with any internal state, all operations, all states of the stack", "why_tests_cant": "A test fixes a reader; the claim is about every implementation of the two traits.", "anchors": ["examples/ntfs-shell/main.rs:45-47", "examples/ntfs-shell/sector_reader.rs:59-86", "examples/ntfs-shell/sector_reader.rs:88-131", "src/traits.rs"]}
{"id": "C61", "title": "The shell reaches every byte of the volume", "statement": "A volume that the library can open and read through a plain file can be opened and read by the shell as well: for each request the exact condition under which the stack of readers delivers.", "quantifier": "all images, all requests, all data runs and buffers", "why_tests_cant": "The failure depends on the distance between the request and the end of the image, for all lengths.", "anchors": ["examples/ntfs-shell/main.rs:45-47", "examples/ntfs-shell/sector_reader.rs:59-86", "src/ntfs.rs:41-74", "src/attribute_value/non_resident.rs:488-511"]}
{"id": "C62", "title": "fileinfo and fsinfo show what is stored", "statement": "`fileinfo` shows the header of the file record and then, in the order of the flattened attributes, the standard information with its four times, each file name with namespace and parent, and each data stream with name and size, and nothing else. If it ends without an error no stream and no name is missing, and each stream shown is found by data() under its stored name. It ends with an error exactly at the first attribute that cannot be loaded or decoded, after all before it was shown. `fsinfo` shows the geometry of the boot sector and version and label of record 3.", "quantifier": "all file records and attribute lists, all volumes, all arguments", "why_tests_cant": "The claim that nothing is hidden is about all sequences of attributes, also those spread over several records, and all their sizes.", "anchors": ["examples/ntfs-shell/main.rs:328-455", "examples/ntfs-shell/main.rs:457-485", "src/time.rs", "src/structured_values/standard_information.rs"]}
{"id": "C63", "title": "attr and attr_runs list every attribute and locate its data", "statement": "`attr` prints one line for every attribute of the file record in order, and after the line of an attribute list one line for every entry that leads to another file record, with instance number, type, residency, record number, address, length and name of the attribute. `attr_runs` also prints, for every non-resident attribute, one line per data run, and the bytes of the image these lines point to are exactly what reading the value returns. The command ends at the first error, after everything before it was printed; if it ends without an error nothing is missing.", "quantifier": "all file records, attribute lists, mapping pairs, both forms of the command", "why_tests_cant": "The claim covers all sequences of attributes, all lists of entries with all ways in which they fail, and all mapping pairs of any length.", "anchors": ["examples/ntfs-shell/main.rs:107-208", "src/attribute.rs:740-790", "src/structured_values/attribute_list.rs", "src/attribute_value/non_resident.rs:247-382"]}
{"id": "C65", "title": "Results do not depend on how a reader splits its answers", "statement": "Every operation of the library and every command of the shell has one result for all readers that hold the same bytes and do not fail: no byte, count, name, error or state of a value depends on the sizes of the pieces in which the reader delivers, on its position, or on what was read through it before. In particular one `read` of an attribute value returns the same number of bytes on every such reader.", "quantifier": "all images below 2^64 bytes, all schedules of short reads, all positions and histories of the reader, all operations and arguments", "why_tests_cant": "A reader may split every answer at any place; the schedules of a single read of a value already form an infinite set, and tests use in-memory cursors that never split.", "anchors": ["src/attribute_value/non_resident.rs:95-245", "src/attribute_value/attribute_list_non_resident.rs:96-330", "src/traits.rs", "src/file.rs:55-110", "examples/ntfs-shell/main.rs:34-105"]}
{"id": "C64", "title": "A session of the shell: every line has one meaning, errors do not end it, only cd moves, and files are never overwritten", "statement": "Every line typed at the prompt has exactly one reading as a word and an argument, and the command is the one listed for that word (or an error naming the word). No error of any command ends the session or skips a line; what comes after `exit`, `quit` or the end of input has no effect. The directory reached is the one that the `cd` lines alone lead to, and each prompt shows the path they lead to. No host file is overwritten, every new host file comes from an executed `get` line, has the name this line asks for, and has the contents `get` writes when it is the only command after those `cd` lines. In particular a walk of any number of `cd` lines followed by `get` writes exactly the bytes of the stream named.", "quantifier": "all sequences of lines of any length, all initial directories and host files, all images and devices (for the contents: devices without failures), all depths of directories", "why_tests_cant": "The sessions are unbounded sequences of arbitrary lines whose effects could interact through the reader, the directory stack and the host files; a test runs a fixed script.", "anchors": ["examples/ntfs-shell/main.rs:34-105", "examples/ntfs-shell/main.rs:485-545", "examples/ntfs-shell/main.rs:547-640"]}
{"id": "C66", "title": "get writes into the current directory of the host", "statement": "As the help of the shell says, every file that `get` creates on the host lies in the host's current directory. This holds exactly for arguments without a slash; for the documented form `get /N` it fails: the file is created in the root directory of the host.", "quantifier": "all sessions of any length, all arguments, all volumes and device behaviours, all POSIX hosts", "why_tests_cant": "The output name is computed from an arbitrary argument, and the claim is about every file a session of any length creates.", "anchors": ["examples/ntfs-shell/main.rs:491-508", "examples/ntfs-shell/main.rs:578-588", "examples/ntfs-shell/main.rs:611-624"]}
{"id": "C67", "title": "Iterators that have ended stay ended", "statement": "After any iterator of the library (data runs, raw attributes, attributes, attribute list entries, index node entries, index records, index entries) has returned None, every further call returns None again, changes nothing and does not touch the device, whatever happened before: errors, failing devices, malformed data. The library promises this by implementing FusedIterator for most of them.", "quantifier": "all states of the iterators (of the index iterator: all states reachable by any number of calls on any devices), all contents, all device behaviours", "why_tests_cant": "FusedIterator is a promise about every state the iterator can reach, including those after errors on malformed data or failing devices.", "anchors": ["src/attribute_value/non_resident.rs:360-431", "src/attribute.rs:572-689", "src/attribute.rs:749-772", "src/index_entry.rs:332-436", "src/structured_values/index_allocation.rs:141-207", "src/structured_values/attribute_list.rs:123-172", "src/index.rs:142-227"]}
{"id": "C68", "title": "Trying again after a device failure", "statement": "When a call on an iterator or value fails because the underlying reader reported an I/O error, calling again continues where the failed call was: nothing is skipped, repeated or taken from somewhere else. This holds for attribute list entries, and for index records in one attribute. It does not hold for index entries (a failed subnode is lost with its entry), for the attributes of a file (a failed list entry is lost), and for values that are split over an attribute list (a failed part is skipped, a failed seek to the start leaves the old attribute in place). For index entries a failure loses exactly one subtree, and for split values a seek backwards repairs everything.", "quantifier": "all stored indexes, lists and split values, all histories of operations, all devices that fail at any of their calls with any errors", "why_tests_cant": "Needs failures at every possible device call in every state, followed by every possible further history.", "anchors": ["src/index.rs:142-227", "src/attribute.rs:572-647", "src/structured_values/attribute_list.rs:123-172", "src/structured_values/index_allocation.rs:141-163", "src/attribute_value/attribute_list_non_resident.rs:89-277"]}
{"id": "C69", "title": "Attached values are ordinary files for the standard library", "statement": "A value attached to its reader (attach) can be used by any code that works with std::io::Read and std::io::Seek: any sequence of read, read_exact, read_to_end, seek, stream_position and rewind gives the results of the same sequence on an in-memory file with the bytes of the value, and the detached value stands at the resulting position. stream_position never changes anything. read_exact of the standard library does the same as NtfsReadSeek::read_exact. An error of the library comes through std::io::Error unchanged, and only an interrupted reader looks like one. If the reader fails, read_to_end reports the failure, and what it has collected is a beginning of the data.", "quantifier": "all values (resident, non-resident, split over an attribute list), all sequences of operations, all ways in which the reader splits its answers and in which read_to_end chooses its buffers, all failures of the reader", "why_tests_cant": "Needs all operation sequences, all buffer growth strategies of the standard library and all reader behaviours.", "anchors": ["src/attribute_value/mod.rs:38-43", "src/attribute_value/mod.rs:105-162", "src/attribute_value/non_resident.rs:200-258", "src/error.rs:230-257"]}
{"id": "C70", "title": "Every call comes back", "statement": "Opening a volume, loading the upcase table, reading files, looking up and iterating attributes, attribute lists and index records, opening values, reading and seeking in them, decoding structured values, opening an index and reading one of its nodes take finitely many steps on every image and every reader, whatever was called before. The iteration over the attributes of a file ends: it gives fewer than 2^97 attributes in total, even if calls fail in between and even if every call meets other bytes. Only the two searches through an index can go on forever (C27).", "quantifier": "all images, all readers (any split, interruption or failure of any call), all handles that a program can have got hold of through any sequence of calls on any devices, all arguments", "why_tests_cant": "Nontermination shows on crafted images only, and a test cannot tell a very long run from an endless one.", "anchors": ["src/attribute.rs:437-530", "src/structured_values/attribute_list.rs:94-217", "src/attribute_value/non_resident.rs:140-330", "src/attribute_value/attribute_list_non_resident.rs:130-420", "src/index_record.rs:59-93", "src/ntfs.rs:60-190", "src/file.rs:120-420"]}
{"id": "C71", "title": "A message tells which error it is and what is wrong", "statement": "The text of an error determines the error with all the values it carries: two different errors never have the same message. Every error that carries a byte position tells it, in hexadecimal digits, or says that there is none. Where a message compares a stored size with the size that is available, the first number is the stored one and the second the available one. A message about a structured value of the wrong size tells its type, the bytes it has and the bytes it needs.", "quantifier": "all errors with all values of their fields, all texts that the reader gives to its own errors; all file records, index records, attributes, index entries and structured values with wrong sizes", "why_tests_cant": "48 messages with unbounded fields: that no two of them coincide concerns all pairs of errors, and swapped numbers look plausible in a test that only checks the variant.", "anchors": ["src/error.rs:16-228", "src/types.rs:24-28", "src/types.rs:107-114", "src/file.rs:524-539", "src/index_record.rs:151-177", "src/attribute.rs:405-436", "src/index_entry.rs:279-297", "src/structured_values/volume_information.rs:71-78", "src/structured_values/index_root.rs:56-63", "src/structured_values/file_name.rs:244-257"]}
{"id": "C72", "title": "A reference leads to the file it was made for", "statement": "Opening a file through a file reference, an index entry or an attribute list entry gives the file with the record number of the reference. It is the file the reference was made for: its sequence number is the one in the reference, and its record is in use. If a record with both numbers is stored, the reference leads to it.", "quantifier": "all record and sequence numbers, all volumes and devices", "why_tests_cant": "Stale references only arise when records are reused; test images have none, and the claim is about all pairs of numbers.", "anchors": ["src/file_reference.rs:22-43", "src/index_entry.rs:271-277", "src/structured_values/attribute_list.rs:284-292", "src/file.rs:303-305", "src/file.rs:410-412", "src/file.rs:504-508"]}
{"id": "C73", "title": "An attribute list reads the same in the record and in clusters", "statement": "Iterating over an attribute list with the same bytes shows the same entries, the same errors apart from positions, and the end at the same place, whether the list is resident or not. Once a call returns no entry, all later calls return the same.", "quantifier": "all list contents, sound or not; all runs that store them; all devices without failures; any number of calls", "why_tests_cant": "Two separate code paths; that they agree on arbitrary, also damaged, contents is a statement about all byte strings.", "anchors": ["src/structured_values/attribute_list.rs:122-173", "src/structured_values/attribute_list.rs:184-200"]}
{"id": "C74", "title": "Printed flags are exactly the flags that are set", "statement": "Printing the flags of a file, an attribute, an index entry, a file name, standard information or a volume shows the documented names of exactly those flags whose bits are set on the disk, in documented order with bars between them, and nothing for undocumented bits. Two values of a flags type print the same only if they are equal, also with undocumented bits; is_directory agrees with what is printed.", "quantifier": "all record, entry and value contents; all numbers as flag values", "why_tests_cant": "There are 2^16 and 2^32 combinations of stored bits, and that no two values print alike is a statement about pairs of them.", "anchors": ["src/attribute.rs:50-67", "src/attribute.rs:228-233", "src/file.rs:98-113", "src/file.rs:410-433", "src/index_entry.rs:44-59", "src/index_entry.rs:193-196", "src/structured_values/mod.rs:33-82", "src/structured_values/standard_information.rs:100-102", "src/structured_values/file_name.rs:179-190", "src/structured_values/volume_information.rs:29-49"]}
{"id": "C75", "title": "The text of the shell tells what it shows", "statement": "The text that dir, attr, attr_runs, fileinfo and fsinfo of the example shell write to the standard output can be read back: every entry, attribute, data run and field is in a line of its own under its label or in its column, the values are the numbers, positions, flags and names of the file, and two different results never give the same text. A record number can be typed back after a slash as it was shown. This holds as long as no name on the volume contains a newline; names are printed as they are stored, so a name with a newline makes dir show files and directories that do not exist.", "quantifier": "All lists of entries, attributes, data runs and fields, with any numbers, positions, flags and names (without newline), and all record numbers.", "why_tests_cant": "That no two results give the same text is a statement about all pairs of results; a test compares single texts.", "anchors": ["examples/ntfs-shell/main.rs:108-206", "examples/ntfs-shell/main.rs:300-326", "examples/ntfs-shell/main.rs:328-485", "examples/ntfs-shell/main.rs:627-668", "src/types.rs:98-114"]}
{"id": "C76", "title": "Names shown by dir can be typed back", "statement": "A user who types dir and then attr, attr_runs, fileinfo, get or cd followed by a name that dir showed gets the file or directory of that very entry: the name on the screen, typed as a line and converted to UTF-16 again, stands for the entry. This holds for every name without unpaired surrogates, without white space at its ends, without a newline and without a slash at its start (for get also without a colon, for cd the slash is harmless but the name must not be ..), if no other entry has the same name up to upper case. Each of the conditions is necessary: unpaired surrogates are all shown as the same character, white space at the ends is cut off, a newline ends the line, a slash makes the rest a record number, and a colon starts the name of a stream; then another file is opened, or one that is listed is said not to exist.", "quantifier": "All directories, entries, names, upcase tables, sessions and devices.", "why_tests_cant": "It quantifies over all names that can be stored in a directory, among them names that Windows refuses but the disk format allows; a test types the few names of a test image.", "anchors": ["examples/ntfs-shell/main.rs:67-102", "examples/ntfs-shell/main.rs:209-326", "examples/ntfs-shell/main.rs:487-540", "examples/ntfs-shell/main.rs:627-668", "src/indexes/file_name.rs:28-50"]}
{"id": "C77", "title": "Reported positions are device addresses", "statement": "The byte position that a file, an attribute, an index record, an index entry or an entry of an attribute list reports, and the byte position in an error, is the address on the device where the bytes of that structure are found (apart from the last two bytes of each sector, which a fixup replaces). A data run error names the address of the run, an entry error the address of the entry, a record error the address of the record. Three places are off: an index root, its entries and the entries of a resident attribute list lie the value offset of their attribute after their position, and the mismatch of an update sequence number reports the address of the array element instead of the two bytes that it quotes.", "quantifier": "All devices, volumes, records, attributes, data runs, indexes, lists, byte strings and numbers of calls.", "why_tests_cant": "The positions are only shown in error messages and never used to read, so nothing else goes wrong when one is off; a test would have to compare each of them with the layout of an image by hand.", "anchors": ["src/record.rs:38-97", "src/file.rs:134-159", "src/attribute.rs:294-320", "src/attribute.rs:360-380", "src/attribute_value/non_resident.rs:300-420", "src/index_record.rs:59-134", "src/index_entry.rs:120-268", "src/index_entry.rs:383-433", "src/structured_values/index_root.rs:55-130", "src/structured_values/attribute_list.rs:86-315", "src/error.rs:212"]}
{"id": "C78", "title": "Damage elsewhere does no harm", "statement": "Every operation depends only on the bytes of the structures it works on. Ntfs::new depends only on the first 512 bytes; Ntfs::file only on the record of the MFT and on the record it opens; the reads and seeks of a value only on the clusters of that value; a search in an index and a walk through it only on the clusters of its index allocation. All operations on a volume, up to a whole session of the shell, depend only on the places that the volume uses: the records of its MFT and the clusters of their attributes. Two devices that agree there give the same results, the same errors and the same panics, even if they differ in size and in every other byte.", "quantifier": "All volumes, images, sets of places, file record numbers, lists of operations, keys, orders and lines of input, and all behaviours of the device (short reads and failures) that are the same on both.", "why_tests_cant": "It is a statement about all pairs of devices: a test can damage some bytes of some image, but not show that no byte outside of the structures ever matters.", "anchors": ["src/ntfs.rs:41-75", "src/ntfs.rs:85-111", "src/ntfs.rs:128-200", "src/attribute_value/non_resident.rs:38-205", "src/attribute_value/attribute_list_non_resident.rs:42-327", "src/index.rs:53-320", "src/attribute.rs:498-769", "src/file.rs:134-484", "src/upcase_table.rs:38-74", "examples/ntfs-shell/main.rs:67-540"]}
{"id": "C79", "title": "How often the reader is called", "statement": "On a device that answers every request in full, the operations make exactly so many calls of seek and read: a file record costs one seek and one read; Ntfs::file makes no call if the number overflows, two if the number is outside of the MFT, and four otherwise, however many extents the MFT has; a history of reads and seeks on a non-resident value costs one seek and one read for every allocated extent that each read takes bytes from, and nothing for seeks, for sparse extents and for bytes past the end; a search in an index loads at most one record for every level of the tree below the root; a listing loads no record twice and at its end every record exactly once; an index that fits into its root costs no call at all.", "quantifier": "All volumes, images, extent lists, sizes, histories of reads and seeks, index trees of any depth, keys and comparison functions (also inconsistent ones).", "why_tests_cant": "The number of calls depends on the layout on the disk and on the whole history of the value; a test counts calls for one layout, and repeated work in another layout or at another depth stays unseen because the data returned are the same.", "anchors": ["src/file.rs:134-158", "src/ntfs.rs:118-162", "src/attribute_value/non_resident.rs:123-194", "src/attribute_value/non_resident.rs:487-525", "src/attribute_value/non_resident.rs:623-708", "src/index.rs:127-225", "src/index.rs:259-320", "src/structured_values/index_allocation.rs:46-82", "src/index_record.rs:59-83"]}
{"id": "C80", "title": "Panics come only from listed malformations", "statement": "If the volume has none of the following malformations, no call on anything that a program can get from it ever panics: a file record size outside 32..65535; an $MFT without a position; an attribute whose header does not fit into its record; a mapping pair whose run ends above 2^64; an index root with an index record size outside 37..65535, with entries that start behind their end, or with an entry length below 13; an index record with such entries or with sizes that overflow 32 bits. The program only has to follow three rules: the upcase table is read before names are compared, an entry of an attribute list is looked up in the file that it names, and index records are requested with a size in 37..65535.", "quantifier": "All volumes and images with these conditions, all sequences of calls of any length on all handles derived from each other (files, attributes, iterators, values, data runs, attribute lists, structured values, indexes, index records, entries), all arguments, positions of the reader and behaviours of the reader (short reads, errors, interruptions).", "why_tests_cant": "A fuzzer can find panics but never show that there is none, and which conditions on the bytes are enough for all sequences of calls is not visible from any set of images.", "anchors": ["src/ntfs.rs:85-217", "src/file.rs:134-484", "src/record.rs:38-143", "src/attribute.rs:180-830", "src/attribute_value/non_resident.rs:38-420", "src/attribute_value/attribute_list_non_resident.rs:42-327", "src/structured_values/index_root.rs:30-140", "src/index_record.rs:59-200", "src/index_entry.rs:96-470", "src/index.rs:53-330", "src/structured_values/attribute_list.rs:44-330"]}
{"id": "C81", "title": "The shell crashes only for three reasons", "statement": "If the image holds a volume without the malformations of C80, the shell ends with a panic only if a line that is not UTF-8 is typed, or if the volume has an index entry without a key that is not the last one of its node, or if it has a file name with a backslash. As long as there is a current directory, no command but dir panics at all, and dir only on such an entry. Opening the volume does not panic.", "quantifier": "All images with these conditions, all readers over them (short reads, errors, interruptions), all hosts, all sequences of lines of any length, all shells reached.", "why_tests_cant": "A test runs a few sessions on a few images. That no other sequence of commands, on no other image and with no other failure of the reader, ends in a panic is a statement about all of them, and each command goes through most of the library.", "anchors": ["examples/ntfs-shell/main.rs:34-105", "examples/ntfs-shell/main.rs:108-208", "examples/ntfs-shell/main.rs:210-326", "examples/ntfs-shell/main.rs:328-540", "examples/ntfs-shell/main.rs:627-668", "src/index.rs:127-228", "src/index_entry.rs:96-300"]}
{"id": "C82", "title": "The shell hangs only in a directory whose index has a cycle", "statement": "Every command of the shell comes back, if no index record of the current directory is below itself; one number of rounds suffices for all images, all states of the shell and all commands. A command that does not search for a name and does not list a directory comes back on every image, whatever the reader does. A whole session comes back if no index of the volume has a cycle. If a command does not come back, it searches for a name or lists the directory, and the index of the current directory has a record below itself that a traversal can meet.", "quantifier": "All images, all readers over them (short reads and errors; interruptions only for the commands without a search), all hosts, all commands and all sequences of lines of any length, all shells built from handles obtained from the library.", "why_tests_cant": "A test that ends shows nothing about other images, and a test that does not end shows nothing at all. That each loop of each command is bounded for every image is a statement about all of them.", "anchors": ["examples/ntfs-shell/main.rs:34-105", "examples/ntfs-shell/main.rs:108-208", "examples/ntfs-shell/main.rs:210-326", "examples/ntfs-shell/main.rs:328-540", "examples/ntfs-shell/main.rs:551-625", "src/file.rs:263-297", "src/index.rs:127-228", "src/index.rs:282-331"]}
{"id": "C83", "title": "Bytes beyond the initialised size of a value read as zeros", "statement": "A non-resident attribute states how much of its value was ever written (initialized_size); the clusters beyond hold whatever was on the disk before. A value of the right contents is that of the clusters up to this size, and zeros up to the data size. Reading a value should give these contents. What the code gives is stated exactly: the bytes of the clusters up to the data size, which is right if and only if the clusters hold zeros beyond the initialised size; in particular if everything is initialised or the rest is sparse. Two records that differ in the initialised size only cannot be told apart by anything the library offers.", "quantifier": "All images, all non-resident attributes in one file record, all runs, all sizes, all schedules of the reader.", "why_tests_cant": "Files whose initialised size is smaller than their size are rare in test images and then usually have zeros in their clusters; that no accessor depends on the field is a statement about all records.", "anchors": ["src/attribute.rs:85-112", "src/attribute.rs:281-330", "src/attribute.rs:498-535", "src/attribute_value/non_resident.rs:30-260"]}
{"id": "C84", "title": "A compressed value reads as its decompressed contents, or is refused", "statement": "The contents of a value with the compression flag are those of its compression units: a unit with clusters that are not stored holds LZNT1 data in those that are. Reading such a value should give these contents or an error. What the code gives is stated exactly: the raw bytes of the clusters, which is right if and only if no decompression changes them, in particular if no unit is in fact compressed. The flag is reported to a caller who asks, and neither it nor the compression unit nor the allocated size changes anything else.", "quantifier": "All images, all compressed non-resident attributes in one file record, all runs and units, all schedules of the reader.", "why_tests_cant": "A test that reads an uncompressed file shows nothing, and that the flag changes nothing is a statement about all records and all accessors.", "anchors": ["src/attribute.rs:50-62", "src/attribute.rs:85-112", "src/attribute.rs:222-235", "src/attribute.rs:281-330", "src/attribute.rs:498-535", "src/attribute_value/non_resident.rs:30-260"]}
{"id": "C85", "title": "A release build gives no other data than a debug build", "statement": "In a debug build an overflow of an addition stops the program, in a release build the addition wraps around and debug assertions are not checked. Where a debug build does not stop, both give the same results: for every history of reads and seeks on a non-resident value, split or not, for the fixup of records, for reading index records, and for opening files, iterating attributes, and opening, listing and searching directories. Where it stops, a release build should at least not pass off other bytes as data. What it does is stated exactly: a run beyond 2^64 reads from the start of the volume; the fixup of a record below 16 MiB is refused; an index record with sizes that wrap is accepted, its entries panic, and the iterator inside an index yields entries and errors but never the end, or nothing if the offset wraps too.", "quantifier": "All values with arbitrary run bytes, all devices, all histories; all records and index records of any bytes.", "why_tests_cant": "Tests run in one of the two builds. The difference shows only for sizes and positions near the limits of the integer types, which no test image has.", "anchors": ["src/attribute_value/non_resident.rs:488-511", "src/attribute_value/non_resident.rs:123-147", "src/record.rs:38-87", "src/record.rs:122-125", "src/index_record.rs:72-79", "src/index_record.rs:128-134", "src/index_record.rs:151-177", "src/index_entry.rs:315-361", "Cargo.toml", "src/file.rs:263-297", "src/attribute.rs:572-647", "src/index.rs:127-320"]}
{"id": "C86", "title": "The parts of a file that an attribute list names are parts of that file, in their places", "statement": "An attribute list gives for each part of a value the file record, the sequence number that the record should have, and the first cluster of the part; each file record says to which file it belongs. A value that is read through the list consists of the parts at the clusters that the list gives, and only of parts in records that belong to the file and have not been given to another file since. Otherwise opening or reading it fails.", "quantifier": "All volumes with any number of parts, any sequence numbers, first clusters and references in the records.", "why_tests_cant": "Test images come from a working file system, where all these fields agree. A test would have to construct every way in which they can disagree.", "anchors": ["src/file.rs:85-96", "src/structured_values/attribute_list.rs:28-48", "src/structured_values/attribute_list.rs:268-290", "src/attribute.rs:593-628", "src/attribute_value/attribute_list_non_resident.rs:128-172", "src/attribute_value/attribute_list_non_resident.rs:304-317"]}
{"id": "C87", "title": "A value reads the same on a 32-bit target as on a 64-bit one", "statement": "The crate is meant for boot loaders and other no_std programs, also on processors with a 32-bit usize. There every history of reads and seeks on a non-resident value gives the same results and bytes as on a 64-bit target; in particular a file is read up to its end, however large it is.", "quantifier": "All values of any size with any run information, all devices, all histories of reads and seeks.", "why_tests_cant": "The tests run on the 64-bit development machine and their image is far smaller than 4 GiB.", "anchors": ["src/attribute_value/non_resident.rs:123-147", "src/attribute_value/non_resident.rs:488-511", "src/attribute_value/non_resident.rs:623-664"]}
{"id": "C88", "title": "Header offsets near 4 GiB are refused on a 32-bit target like on a 64-bit one", "statement": "Offsets and sizes in the headers of index roots, index records and attributes come from the disk. On a target with a 32-bit usize, in a debug build and in a release build, an index node or an attribute is accepted, refused or shown with exactly the same entries as on a 64-bit target; in particular no header is shown as an entry.", "quantifier": "All index roots, index records and attributes of any content, both builds.", "why_tests_cant": "The tests run on the 64-bit development machine, where these sums of usize cannot overflow.", "anchors": ["src/structured_values/index_root.rs:55-99", "src/structured_values/index_root.rs:137-157", "src/index_record.rs:85-101", "src/index_record.rs:128-134", "src/attribute.rs:287-306", "src/attribute.rs:350-372"]}
{"id": "C89", "title": "The buffers for records stay small whatever the image says", "statement": "The crate refuses record sizes above 4 KiB to prevent allocating too large buffers (comment at src/boot_sector.rs:92). So opening a file, loading an index record and going through an index allocate buffers of at most 4 KiB each, and an iteration holds at most one of them per level of the tree.", "quantifier": "All images, all readers including failing ones, all histories of calls on an iteration.", "why_tests_cant": "The test image has the usual record sizes and a well-formed index; no test looks at the sizes of buffers.", "anchors": ["src/boot_sector.rs:84-120", "src/file.rs:134-159", "src/index_record.rs:59-80", "src/index.rs:53-82", "src/index.rs:115-124", "src/index.rs:149-222", "src/structured_values/index_root.rs:119-122"]}
