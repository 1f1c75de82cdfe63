{"id": "C01", "title": "Synchsafe integers are lossless and sync-free", "statement": "Encoding an integer as a synchsafe integer succeeds exactly when the value fits in the 7-bits-per-byte capacity of its width (2^7 for 8 bit, 2^14 for 16 bit, 2^28 for 32 bit); decoding the result gives the value back; the widening encoders of u8 and u16 accept every value and round-trip, and the widening encoder of u32 stores the five 7-bit groups; and no byte of an encoded value has its top bit set, so the encoded bytes can never contain an MPEG frame sync.", "quantifier": "every value of u8, u16 and u32", "why_tests_cant": "The 32 bit domain is not enumerated by tests; the failure boundary and the absence of a set top bit are claims about every value.", "anchors": ["lofty/src/id3/v2/util/synchsafe.rs: SynchsafeInteger::{synch,unsynch,widening_synch}"]}
{"id": "C02", "title": "Unsynchronised data is decoded independently of read chunking", "statement": "Reading an unsynchronised ID3v2 stream to its end yields the original data in which every 0x00 that follows a 0xFF has been removed, no matter how the caller sizes the individual reads; in particular data that was unsynchronised by inserting 0x00 after each 0xFF is recovered exactly.", "quantifier": "every byte sequence and every sequence of read buffer sizes", "why_tests_cant": "The set of byte strings and of read schedules is infinite; a 0xFF/0x00 pair split over two reads or over the internal 8 KiB buffer boundary is exactly the case a finite suite misses.", "anchors": ["lofty/src/id3/v2/util/synchsafe.rs: UnsynchronizedStream::read"]}
{"id": "C03", "title": "Replacing a byte range of a file is exactly a splice", "statement": "After replacing a byte range of a file, the file consists of the bytes before the range, the replacement bytes, and the bytes after the range, unchanged and in order, whether the file grows, shrinks or keeps its length, and whatever the relation between the amount moved and the size of the copy buffer.", "quantifier": "every file content, every valid range, every replacement, every positive copy-buffer size", "why_tests_cant": "Data-loss bugs in overlapping in-place copies depend on the interaction of file length, shift amount and buffer size; tests sample a handful of combinations.", "anchors": ["lofty/src/flac/write.rs: replace_range, extend_storage, shift_right, shift_left"]}
{"id": "C04", "title": "Text survives every encoding that can represent it", "statement": "Encoding a text and decoding the bytes with the same text encoding returns the same text for Latin-1 (code points below 256), UTF-8, UTF-16 with BOM and UTF-16BE, for text free of NUL and of byte-order-mark code units; a terminated text is decoded up to its terminator and the decoder consumes exactly the text and its terminator.", "quantifier": "every list of Unicode scalar values and every suffix after the terminator", "why_tests_cant": "There are infinitely many strings, and surrogate pairs, terminators that straddle alignment and byte order all interact.", "anchors": ["lofty/src/util/text.rs: TextEncoding::encode, decode_text, read_to_terminator, utf16_decode"]}
{"id": "C05", "title": "Number/total pairs round-trip through their textual form", "statement": "Formatting a track or disc number together with an optional total as text and parsing it back gives the same number and total; formatting only a total gives text that parses to number 0 and that total; formatting neither gives nothing.", "quantifier": "every pair of optional u32 values", "why_tests_cant": "2^64 pairs of numbers; parsing of decimal text must be inverse to formatting for all of them.", "anchors": ["lofty/src/id3/v2/util/pairs.rs: format_number_pair", "lofty/src/id3/v2/tag.rs: split_num_pair", "lofty/src/ape/tag/mod.rs: split_num_pair"]}
{"id": "C06", "title": "Rounded division is nearest-integer division", "statement": "The rounded division used for all duration computations returns a value q whose distance from the exact quotient is at most one half (ties upwards), is monotone in the numerator, and never differs from the truncated quotient by more than one. (The comment that results below one are rounded up to one is false for quotients below one half.)", "quantifier": "every numerator and every non-zero denominator", "why_tests_cant": "Numeric claim over all pairs of 64-bit integers.", "anchors": ["lofty/src/util/math.rs: RoundedDivision::div_round"]}
{"id": "C07", "title": "OGG pages round-trip byte for byte", "statement": "Serialising an OGG page and reading it back yields a page with the same flags, granule position, serial, sequence number, checksum, segment table and content, and the reader stops exactly at the end of the page, whatever bytes follow.", "quantifier": "every page with 1 to 255 segments whose content length is the sum of its segment table, and every trailing data", "why_tests_cant": "Pages range over all header values, segment tables and contents.", "anchors": ["ogg_pager/src/lib.rs: Page::{as_bytes,read}", "ogg_pager/src/header.rs: PageHeader::read"]}
{"id": "C08", "title": "The OGG checksum is the CRC-32 polynomial remainder and detects corruption", "statement": "The page checksum equals the bitwise CRC with polynomial 0x04C11DB7 (zero initial value, no reflection) of the page with its checksum field zeroed; it is linear over XOR of equal-length inputs; and flipping any non-empty pattern of bits confined to one byte, or to any 32 consecutive bits at any bit offset, changes the checksum.", "quantifier": "every byte string, every error position and error pattern", "why_tests_cant": "The 256-entry table and the byte-wise loop must agree with polynomial division for every message; tests check a few golden files.", "anchors": ["ogg_pager/src/crc.rs: crc32, CRC_LOOKUP_ARRAY", "ogg_pager/src/lib.rs: Page::gen_crc"]}
{"id": "C09", "title": "Pagination followed by reading returns the packets", "statement": "Splitting non-empty packets into OGG pages, writing the pages one after another and reading packets back returns exactly the same packets, in order, with nothing lost or merged at page boundaries, including packets whose length is a multiple of 255 or of the page capacity.", "quantifier": "every list of non-empty packets of any length, every serial number, granule position and flag byte", "why_tests_cant": "Lacing errors occur only for particular lengths modulo 255 and modulo the page capacity and in combination with other packets.", "anchors": ["ogg_pager/src/paginate.rs: paginate, paginate_packet, flush_page", "ogg_pager/src/packets.rs: Packets::{read,read_count,paginate,write_to}"]}
{"id": "C10", "title": "Paginated pages are well formed", "statement": "Every page produced by pagination has between 1 and 32 segments and a content length equal to the sum of its segment table, carries the given serial number, sequence numbers count up from zero without gaps, only the first page can carry the first-page flag, the last-page flag is on the last page exactly when requested, a page is flagged as a continuation exactly when it does not begin a packet (and is not the flagged first page), and every page on which no packet ends has granule position -1.", "quantifier": "every list of packets, serial, granule position and flag byte", "why_tests_cant": "A structural invariant over unboundedly many pages.", "anchors": ["ogg_pager/src/paginate.rs: paginate, PaginateContext::flush_page"]}
{"id": "C11", "title": "Indexed packet access agrees with iteration and update", "statement": "For packets held in memory, getting packet i returns the i-th packet of the iteration; replacing packet i (with content of any length) changes exactly that packet, leaving count, order and all other packets alone, and fails without effect when i is out of range.", "quantifier": "every list of packets, every index, every replacement, every sequence of replacements", "why_tests_cant": "Packets are stored in one contiguous buffer with a size table, so an offset error only shows for some combination of lengths and a history of updates.", "anchors": ["ogg_pager/src/packets.rs: Packets::{packet_span,get,set,iter}, PacketsIter::next"]}
{"id": "C12", "title": "Vorbis comments survive write and re-read", "statement": "Serialising a Vorbis comment block (vendor, items, in the order held) and parsing it returns the same vendor and the same items in order, provided keys are valid field names, values are non-empty and are not one of the specially handled keys; items with empty values are not written; parsing consumes exactly the serialised bytes.", "quantifier": "every vendor string, every list of items, every trailing data", "why_tests_cant": "Infinite set of tags; length prefixes and separators interact with arbitrary values including '=' characters.", "anchors": ["lofty/src/ogg/tag/write.rs: create_metadata_packet / create_comments", "lofty/src/ogg/tag/read.rs: read_comments"]}
{"id": "C13", "title": "Vorbis comment editing behaves like a case-insensitive ordered multimap", "statement": "After insert, get of the same key (in any letter case) returns the inserted value and it is the only value for that key; push keeps earlier values; remove returns and removes precisely the values of that key; none of the operations changes the values or the multiplicity of other keys, and insert and push keep their order; numbers set through the track and disc accessors are read back.", "quantifier": "every tag state, every key and value, every sequence of operations", "why_tests_cant": "Claims about all reachable states and letter-case variants.", "anchors": ["lofty/src/ogg/tag.rs: VorbisComments::{get,get_all,insert,push,remove}"]}
{"id": "C14", "title": "Parsing a Vorbis comment block is total and bounded", "statement": "Parsing arbitrary bytes as a Vorbis comment block terminates with a tag or an error and does not panic; the vendor string and the fields it reads together never exceed the declared length; an item count larger than a quarter of the declared length is rejected; and the data consumed is exactly the vendor, the fields and their length prefixes.", "quantifier": "every byte string, declared length and parsing mode", "why_tests_cant": "Malformed inputs are unbounded; the property is about all of them.", "anchors": ["lofty/src/ogg/tag/read.rs: read_comments"]}
{"id": "C15", "title": "FLAC metadata blocks round-trip", "statement": "A metadata block written with its 4-byte header is read back with the same type, last-block flag, size and content, and the reader ends exactly after the block; blocks of more than 16777215 bytes are refused.", "quantifier": "every block type, flag, content and trailing data", "why_tests_cant": "All contents and sizes up to 2^24.", "anchors": ["lofty/src/flac/block.rs: Block::{read,write_to}"]}
{"id": "C16", "title": "Writing tags to a FLAC file leaves the audio and foreign blocks intact", "statement": "After writing a tag to a FLAC stream, all bytes after the metadata are unchanged, STREAMINFO stays first, every block that is neither Vorbis comment, picture nor padding is kept in its original order with identical content, exactly the last block carries the last-block flag, and reading the result yields the written comment and picture blocks.", "quantifier": "every well-formed FLAC stream, every audio payload, every tag, every padding preference", "why_tests_cant": "Quantifies over all existing block layouts.", "anchors": ["lofty/src/flac/write.rs: write_to_inner", "lofty/src/flac/read.rs: read_from"]}
{"id": "C17", "title": "Pictures round-trip through the FLAC picture block", "statement": "Serialising a picture with its dimensions as a FLAC picture block and parsing it returns the same picture type, MIME type, description, dimensions and data.", "quantifier": "every picture with a known MIME type and non-empty description and data, every dimension quadruple", "why_tests_cant": "All picture contents and string lengths.", "anchors": ["lofty/src/picture/mod.rs: Picture::{as_flac_bytes,from_flac_bytes_inner}"]}
{"id": "C18", "title": "Picture type codes and names are consistent", "statement": "Converting a picture type to its byte code and back is the identity for all types, conversion from a code is the inverse for all 21 defined codes, and the APE key of each type maps back to that type; different types never share a code or an APE key.", "quantifier": "every u8 and every picture type", "why_tests_cant": "Exhaustive over a finite table, which example tests only sample.", "anchors": ["lofty/src/picture/mod.rs: PictureType::{as_u8,from_u8,as_ape_key,from_ape_key}"]}
{"id": "C19", "title": "RIFF INFO lists survive write and re-read", "statement": "Serialising a RIFF INFO list and parsing its chunks returns the non-empty items in order with the same values; the serialised list has even length and its size field equals its content length; every sub-chunk starts at an even offset.", "quantifier": "every list of items with valid four-character keys and NUL-free non-empty values", "why_tests_cant": "Padding depends on the parity of every value length in combination.", "anchors": ["lofty/src/iff/wav/tag/write.rs: create_riff_info", "lofty/src/iff/wav/tag/read.rs: parse_riff_info", "lofty/src/iff/chunk.rs: Chunks::{next,read_string}"]}
{"id": "C20", "title": "AIFF text chunks are written aligned and readable", "statement": "Each AIFF text chunk is written with a big-endian size equal to its text length and padded to an even boundary, and reading the chunks returns name, author, copyright and all annotations in order. Comments (COMT) survive a re-read when all texts but the last have even length.", "quantifier": "every set of text chunk values", "why_tests_cant": "Parity of all lengths in combination.", "anchors": ["lofty/src/iff/aiff/tag/mod.rs: create_text_chunks", "lofty/src/iff/aiff/read.rs"]}
{"id": "C21", "title": "Iterating IFF chunks terminates and stays inside the file", "statement": "Walking the chunks of any RIFF/AIFF stream visits finitely many chunks, strictly advances on every step, and the accumulated sizes never exceed the remaining size given at the start plus the odd-size padding.", "quantifier": "every byte string and remaining size", "why_tests_cant": "Arbitrary malformed size fields.", "anchors": ["lofty/src/iff/chunk.rs: Chunks::{next,skip,correct_position}"]}
{"id": "C22", "title": "ID3v1 tags occupy exactly 128 bytes and round-trip", "statement": "Every ID3v1 tag is written as exactly 128 bytes starting with 'TAG'; reading them back returns the same title, artist, album, comment (each cut to its field width), year, track and genre; text that fits its field is never altered.", "quantifier": "every tag with Latin-1 NUL-free fields, every track 1..255, every genre below the table size, every year up to 9999 (a tag without a year is read back in every parsing mode but strict)", "why_tests_cant": "All string lengths around the 28/30 byte limits combined with the track flag byte.", "anchors": ["lofty/src/id3/v1/write.rs: encode", "lofty/src/id3/v1/read.rs: Id3v1Tag::parse"]}
{"id": "C23", "title": "ID3v2 tag header flags and sizes are decoded faithfully", "statement": "Parsing an ID3v2 header accepts exactly versions 2, 3 and 4 with the ID3 marker, decodes the size as the 28-bit synchsafe value, and derives each flag from its own header bit for that version; a header produced by the writer parses back with the same version, flags and size.", "quantifier": "every 10-byte header", "why_tests_cant": "2^80 headers.", "anchors": ["lofty/src/id3/v2/header.rs: Id3v2Header::parse", "lofty/src/id3/v2/write/mod.rs: create_tag_header"]}
{"id": "C24", "title": "ID3v2 frame flags survive the v2.4 and v2.3 bit layouts", "statement": "Frame flags encoded for ID3v2.4 decode to the same flags, and for ID3v2.3 all flags representable in v2.3 decode to the same flags; distinct representable flags have distinct encodings and undefined bits are never set.", "quantifier": "every combination of frame flags", "why_tests_cant": "All combinations of eight independent flags for two layouts.", "anchors": ["lofty/src/id3/v2/frame/mod.rs: FrameFlags::{parse_id3v24,parse_id3v23,as_id3v24_bytes,as_id3v23_bytes}"]}
{"id": "C25", "title": "ID3v2 tag restrictions byte is a bijection", "statement": "Decoding any restrictions byte and encoding the result gives the same byte, and every combination of restrictions survives encoding and decoding.", "quantifier": "every u8 and every restrictions value", "why_tests_cant": "A finite but complete table claim.", "anchors": ["lofty/src/id3/v2/restrictions.rs: TagRestrictions::{from_byte,as_bytes}"]}
{"id": "C26", "title": "ID3v2 frame lists keep single-instance frames single", "statement": "After any sequence of insertions and removals, no frame id that may only occur once per tag occurs twice; inserting a frame makes exactly that frame retrievable, replaces exactly the frames it is documented to replace, and leaves all other frames in order; removal removes exactly the matching frames.", "quantifier": "every history of insert/remove operations on every set of frames", "why_tests_cant": "Invariant over all histories.", "anchors": ["lofty/src/id3/v2/tag.rs: Id3v2Tag::{insert,remove,get}", "lofty/src/id3/v2/frame/list.rs: FrameList::{insert,remove,get}"]}
{"id": "C27", "title": "ID3v2 frame bodies round-trip", "statement": "For each of the frame kinds popularimeter, unique file identifier, private, event timing codes, relative volume adjustment, user text, user URL, comment/lyrics, attached picture and general object, the encoded body parses back to the same frame content.", "quantifier": "every frame content valid for its encoding", "why_tests_cant": "Unbounded strings and binary payloads, terminators inside multi-byte text, variable-width counters.", "anchors": ["lofty/src/id3/v2/items: parse / as_bytes", "lofty/src/id3/v2/frame/content.rs: parse_content"]}
{"id": "C28", "title": "A sequence of ID3v2 frames is parsed back in order", "statement": "Writing a list of frames and parsing the tag body yields the same frame ids, flags and bodies in the same order, stops at padding and ignores the padding bytes.", "quantifier": "every list of frames and every amount of padding", "why_tests_cant": "Unbounded lists.", "anchors": ["lofty/src/id3/v2/write/frame.rs: create_items", "lofty/src/id3/v2/read.rs: read_all_frames_into_tag", "lofty/src/id3/v2/frame/read.rs: ParsedFrame::read"]}
{"id": "C29", "title": "Writing or removing an ID3v2/APE/ID3v1 tag never alters audio bytes", "statement": "Saving or removing a tag in an MPEG, AAC, APE, MPC or WavPack file replaces only the bytes of the existing tag of that type; the audio bytes and the other tags remain identical and in order, and writing twice is the same as writing once.", "quantifier": "every file made of an optional leading tag, audio payload, and optional trailing tags", "why_tests_cant": "Quantifies over all payloads and all combinations of neighbouring tags.", "anchors": ["lofty/src/id3/v2/write/mod.rs: write_id3v2", "lofty/src/id3/v1/write.rs: write_id3v1", "lofty/src/ape/tag/write.rs: write_to"]}
{"id": "C30", "title": "APE tags survive write and re-read", "statement": "Serialising an APE tag and parsing it back with its footer yields the same items (key, value, kind, read-only flag) in order; header and footer carry the same item count and a size that covers exactly items plus footer.", "quantifier": "every list of items with valid keys, no key twice, and no NUL at the end of a text; at any place in a file", "why_tests_cant": "Infinite item lists, binary values containing NULs.", "anchors": ["lofty/src/ape/tag/write.rs: create_ape_tag", "lofty/src/ape/tag/read.rs: read_ape_tag_with_header", "lofty/src/ape/tag/header.rs"]}
{"id": "C31", "title": "APE tag editing behaves like a case-insensitive map", "statement": "get after insert returns the inserted item for any letter case of the key, there is at most one item per key in the result of insert, remove removes the key, and other keys are unaffected; key validation accepts exactly ASCII printable keys of 2 to 255 characters that are not reserved.", "quantifier": "every tag state, key, item and sequence of operations", "why_tests_cant": "All histories and letter-case variants.", "anchors": ["lofty/src/ape/tag/mod.rs: ApeTag::{get,insert,remove}", "lofty/src/ape/tag/item.rs: ApeItem::new"]}
{"id": "C32", "title": "Generic tag item operations obey map/multimap laws", "statement": "Inserting an item makes it the only item of its key; pushing keeps existing items; removing a key removes all its items and nothing else; taking items returns them in order and leaves the remaining items unchanged as a multiset; retain keeps exactly the matching items in order; inserting or pushing an item whose key the tag type cannot represent fails without effect.", "quantifier": "every tag, key, item and every history of operations", "why_tests_cant": "Invariants over all histories.", "anchors": ["lofty/src/tag/mod.rs: Tag::{insert,insert_unchecked,push,remove_key,take,take_filter,retain,get}"]}
{"id": "C33", "title": "Generic keys map to format keys and back", "statement": "For every tag format, the format key assigned to a generic item key maps back to that same generic key, except for the documented shared keys; the reverse lookup ignores ASCII case and does not depend on the order of the lookup table.", "quantifier": "every generic item key and every format", "why_tests_cant": "Complete table claim over several hundred entries where duplicated format keys silently win.", "anchors": ["lofty/src/tag/item.rs: gen_map!, ItemKey::{from_key,map_key}"]}
{"id": "C34", "title": "Timestamps round-trip and reject invalid dates", "statement": "Printing a timestamp that satisfies the documented field ranges and parsing it in any mode returns the same timestamp; strict parsing accepts exactly the texts of complete, correctly separated, fully padded components; a parsed timestamp never has a finer component without all coarser ones; verification accepts exactly the timestamps in the documented ranges (parsing itself checks no ranges, a witness is recorded).", "quantifier": "every timestamp and every input text", "why_tests_cant": "Unbounded input texts and about 10^13 timestamps.", "anchors": ["lofty/src/tag/items/timestamp.rs: Timestamp::{parse,verify,fmt}"]}
{"id": "C35", "title": "Star ratings map consistently for each provider", "statement": "For each rating provider, converting a star rating to its byte and back yields the same rating, every byte maps to some rating, and the mapping is monotone.", "quantifier": "every provider, every byte, every star rating", "why_tests_cant": "Complete table claim over all bytes and providers.", "anchors": ["lofty/src/tag/items/popularimeter.rs: RatingProvider::{supports_email,rate,convert_raw}"]}
{"id": "C36", "title": "MP4 ilst atoms round-trip", "statement": "Serialising an ilst and parsing it back yields the same atoms with the same identifiers and data in the same order, and every atom's size field equals its serialised length.", "quantifier": "every list of atoms with text, integer, boolean-flag, picture and unknown data of any content", "why_tests_cant": "Unbounded nesting of sized atoms with arbitrary payloads.", "anchors": ["lofty/src/mp4/ilst/write.rs: build_ilst, write_freeform, write_atom_data", "lofty/src/mp4/ilst/read.rs: parse_ilst, parse_data_inner", "lofty/src/mp4/atom_info.rs: AtomInfo::read"]}
{"id": "C37", "title": "MP4 in-place tag writes do not move media data", "statement": "When the new ilst fits in the existing ilst plus adjacent free atoms, writing it changes only that region: the file length, the positions of all other atoms and all chunk offsets remain valid.", "quantifier": "every file, ilst size and available space", "why_tests_cant": "All combinations of old size, new size and free space, including remainders too small for a free atom.", "anchors": ["lofty/src/mp4/ilst/write.rs: write_to, save_to_existing, pad_atom, write_free_atom"]}
{"id": "C38", "title": "MP4 chunk offsets follow the media data when the tag grows or shrinks", "statement": "When an existing ilst changes size by d bytes, each 32-bit chunk offset pointing behind the ilst is changed by d and each offset before it is left unchanged, so every offset still designates the same media byte.", "quantifier": "every offset table, every position and size change", "why_tests_cant": "All offset values and both directions of change.", "anchors": ["lofty/src/mp4/ilst/write.rs: update_offsets"]}
{"id": "C39", "title": "MP4 ilst editing behaves like a map from atom identifiers", "statement": "insert merges or replaces atoms so that the identifier's data contains the inserted data; replace leaves exactly the new data; remove returns and deletes every atom with the identifier; others are unaffected as a multiset; track/disc setters keep the sibling number.", "quantifier": "every ilst state and history of operations", "why_tests_cant": "All histories.", "anchors": ["lofty/src/mp4/ilst/mod.rs: Ilst::{get,insert,replace_atom,remove,set_flag}"]}
{"id": "C40", "title": "File type detection is a function of the leading bytes and never moves the reader", "statement": "Guessing the type of a stream leaves the read position where it was, never misidentifies the magic of FLAC, MP4, WAV, AIFF, APE, MPC, WavPack, Vorbis, Opus or Speex, and skipping an ID3v2 tag of any size before FLAC, APE or MPC data gives the same answer as without the tag.", "quantifier": "every byte content, starting position, junk limit and ID3v2 tag size", "why_tests_cant": "All prefixes and all positions.", "anchors": ["lofty/src/probe.rs: Probe::{guess_file_type,guess_inner,check_mpeg_or_aac}", "lofty/src/file/file_type.rs: FileType::{from_buffer,quick_type_guess}"]}
{"id": "C41", "title": "A tagged file holds at most one tag per type and only supported tags", "statement": "After any sequence of inserting, removing and changing the file type, a tagged file contains at most one tag of each type, every contained tag is readable for the file type, insertion returns the displaced tag, and inserting an unsupported tag has no effect.", "quantifier": "every history of operations and every file type", "why_tests_cant": "Invariant over all histories.", "anchors": ["lofty/src/file/tagged_file.rs: TaggedFile::{insert_tag,remove,change_file_type,tag}"]}
{"id": "C42", "title": "MPEG frame headers are decoded within their tables", "statement": "Every 32-bit word either is rejected or decodes to a header with nonzero bitrate, sample rate and frame length, with all table indices in range; version, layer, channel mode and emphasis depend only on their own header bits.", "quantifier": "every u32", "why_tests_cant": "2^32 words; no out-of-bounds table access for any of them.", "anchors": ["lofty/src/mpeg/header.rs: Header::read", "lofty/src/mpeg/constants.rs"]}
{"id": "C43", "title": "Frame sync search returns the first sync and reverse search the last valid header", "statement": "Forward search returns the smallest offset at which an 11-bit sync begins, or nothing if there is none; the reverse search returns a position at which a valid header starts such that no valid header starts at a later position within the searched window; repeated reverse search terminates.", "quantifier": "every byte string and start position", "why_tests_cant": "All byte strings.", "anchors": ["lofty/src/mpeg/header.rs: search_for_frame_sync, rev_search_for_frame_header"]}
{"id": "C44", "title": "Property computations never divide by zero", "statement": "Computing durations and bitrates for any parsed stream header never divides by zero. This holds for MPEG, Vorbis and MPC SV4-6 and, within the 64-bit range, SV8, and fails for concrete Opus, Speex and MPC SV7 streams, which is recorded together with the exact condition.", "quantifier": "every header value", "why_tests_cant": "All header values; crashing inputs are rare corner cases.", "anchors": ["lofty/src/mpeg/properties.rs: read_properties", "lofty/src/ogg/opus/properties.rs: read_properties", "lofty/src/musepack/sv7/properties.rs: read", "lofty/src/musepack/sv8/properties.rs: read"]}
{"id": "C45", "title": "AAC frame scanning makes progress", "statement": "Scanning the ADTS frames of any file to average the bitrate terminates: each iteration must end at a later position than it started. (It does not for frames that declare length zero; the witness is recorded and progress is proved for all other frames.)", "quantifier": "every byte string", "why_tests_cant": "Non-termination on crafted input cannot be established or excluded by finitely many runs.", "anchors": ["lofty/src/aac/read.rs: read_from, find_next_frame", "lofty/src/aac/header.rs: ADTSHeader::read"]}
{"id": "C46", "title": "Musepack variable-length sizes are decoded exactly", "statement": "A size encoded in 1 to 9 seven-bit groups is decoded to its value and the reader consumes exactly those bytes; more than nine bytes is rejected.", "quantifier": "every value below 2^63 and every byte string", "why_tests_cant": "All 63-bit values.", "anchors": ["lofty/src/musepack/sv8/read.rs: PacketReader::read_size"]}
{"id": "C47", "title": "Scrambling is an involution and event timing codes keep their order", "statement": "Scrambling binary data twice returns the original data; event timing codes are emitted in non-decreasing time order with equal times kept in their original order.", "quantifier": "every byte string and every list of events", "why_tests_cant": "All inputs.", "anchors": ["lofty/src/id3/v2/items/audio_text_frame.rs: scramble", "lofty/src/id3/v2/items/event_timing_codes_frame.rs"]}
{"id": "C48", "title": "Backward pattern search finds the last occurrence", "statement": "Searching a stream backwards for a pattern reports found exactly when the pattern occurs, positions the reader at the start of the last occurrence, and works across internal buffer boundaries, for every internal buffer at least as large as the pattern. (The documented return to the original position when nothing is found does not happen; a witness is recorded.)", "quantifier": "every byte string, every non-empty pattern and every buffer size at least that of the pattern", "why_tests_cant": "Occurrences that straddle buffer boundaries depend on stream length modulo buffer size.", "anchors": ["lofty/src/util/io.rs: RevPatternSearcher::search"]}
{"id": "C49", "title": "Tag conversion keeps what the target can hold", "statement": "Converting a generic tag to a format-specific tag and back keeps every text item whose key the format maps injectively, with the same value and relative order.", "quantifier": "every generic tag and each of the formats APE, Vorbis comments, RIFF INFO, ID3v1", "why_tests_cant": "All tags.", "anchors": ["lofty/src/ape/tag/mod.rs: SplitTag/MergeTag", "lofty/src/ogg/tag.rs: split_tag/merge_tag", "lofty/src/iff/wav/tag/mod.rs", "lofty/src/id3/v1/tag.rs"]}
{"id": "C50", "title": "Splitting a format tag into a generic tag and merging it back loses nothing", "statement": "Taking a format-specific tag apart into a generic tag and a remainder, and merging the two again without an edit, yields the same items: what the generic tag has no key for stays in the remainder, and every other item comes back under the preferred name of its key with the same value. (The exceptions in the code - several comments are reordered, ratings without email, unusual flags and track numbers are dropped, RIFF INFO lists have no remainder - are recorded as witnesses.)", "quantifier": "every APE tag, Vorbis comments tag and RIFF INFO list", "why_tests_cant": "All tags; the library's own tests split and merge one tag with one item per key.", "anchors": ["lofty/src/ape/tag/mod.rs: split_tag, merge_tag", "lofty/src/ogg/tag.rs: split_tag, merge_tag", "lofty/src/iff/wav/tag/mod.rs: split_tag, merge_tag", "lofty/src/tag/split_merge_tag.rs"]}
{"id": "C51", "title": "A generic tag survives MP4", "statement": "Converting a generic tag to an MP4 tag and back keeps, for every key that MP4 stores as a text, exactly the texts in their order; flags as 1 or 0; the last track/disc number and total that is between 1 and 65535; the first valid advisory rating; and all pictures except for their type. Keys unknown to MP4 yield nothing, and nothing is added.", "quantifier": "every generic tag, and both settings of preserving format-specific items", "why_tests_cant": "All lists of items and pictures in all orders; loss shows only for particular keys and combinations.", "anchors": ["lofty/src/mp4/ilst/mod.rs: SplitTag, MergeTag, From", "lofty/src/mp4/atom_info.rs: TryFrom<&ItemKey>", "lofty/src/tag/item.rs"]}
{"id": "C52", "title": "An MP4 tag survives the generic tag", "statement": "Converting an MP4 tag to a generic tag and back keeps the texts of every atom with a generic key, the cover pictures except for their type, the advisory rating and the track and disc numbers; with format-specific items preserved it also keeps every atom without a generic key and every integer or unknown value, and without that setting it keeps none of them.", "quantifier": "every MP4 tag, whatever its atoms and values are", "why_tests_cant": "All combinations of atoms, of values in one atom, and of value types that do not fit their atom.", "anchors": ["lofty/src/mp4/ilst/mod.rs: SplitTag, MergeTag, From", "lofty/src/mp4/ilst/atom.rs: AtomDataStorage", "lofty/src/tag/companion_tag.rs"]}
{"id": "C53", "title": "Stream headers are decoded field by field", "statement": "What a user reads from the properties of a file is what the stream header holds: version, channels, sample rate and the three bit rates of a Vorbis stream (the audio bit rate being the nominal one when it is positive), channels, sample rate, output gain and channel layout of an Opus stream (family 0 with more than two, family 1 with more than eight channels being refused), version, mode, channels, nominal bit rate and variable-bit-rate flag of a Speex stream, frame count and size announced by a Xing, Info or VBRI header of an MP3, and every bit field of a Musepack header of version 4 to 7 together with the number of frames and the duration of versions 4 to 6.", "quantifier": "every value of every field, every packet with anything behind the fields, both parsing modes", "why_tests_cant": "Tests look at a few files; a field read at the wrong offset, with the wrong width or with the wrong mask shows only for values that these files do not have.", "anchors": ["lofty/src/ogg/vorbis/properties.rs: read_properties", "lofty/src/ogg/opus/properties.rs: read_properties", "lofty/src/ogg/speex/properties.rs: read_properties", "lofty/src/mpeg/header.rs: VbrHeader::read", "lofty/src/musepack/sv7/properties.rs: read", "lofty/src/musepack/sv4to6/properties.rs: read"]}
{"id": "C54", "title": "A tag saved as ID3v2.3 comes back as far as ID3v2.3 allows", "statement": "Saving an ID3v2 tag as ID3v2.3 and reading it back yields the same frames, except: frames that ID3v2.3 lacks are gone; Unicode text is UTF-16; the original release date keeps its year; the recording date keeps year, month and day, hour and minute as far as they are known in pairs; all people lists become one list with the same people in the same order; genres become one text that lists the same genre names. Without a recording date the order stays as well. (Years below 1000, a last person without a name and genres with parentheses are lost or changed by the code; witnesses are recorded.)", "quantifier": "every list of frames of all kinds in all orders, chapters included, any padding behind the tag", "why_tests_cant": "The result depends on the combination of frames (several people lists, a date among other frames), which tests with one frame each never show.", "anchors": ["lofty/src/id3/v2/write/frame.rs: create_items_v3", "lofty/src/id3/v2/read.rs: construct_tdrc_from_v3", "lofty/src/id3/v2/util/upgrade.rs: upgrade_v3", "lofty/src/id3/v2/tag.rs: GenresIter, genres"]}
{"id": "C55", "title": "Saving a generic tag directly keeps the texts that its format supports", "statement": "A generic tag can be saved without being converted first. What is written for RIFF INFO, Vorbis comments and APE, turned back into a generic tag, has for every supported key the same texts in the same order (RIFF INFO without the NULs around them; ratings as a number); AIFF text chunks have the first title, artist and copyright message and all comments in order; ID3v1 has the first item of each of its keys, and is the same as after a conversion if there is one text per key. The first track and disc numbers and totals are kept by APE tags.", "quantifier": "every generic tag, every supported key, with any other items around it", "why_tests_cant": "There are two code paths for saving a tag, and tests compare them only for one small tag with one item of each key.", "anchors": ["lofty/src/tag/utils.rs: write_tag, dump_tag", "lofty/src/ogg/tag.rs: create_vorbis_comments_ref", "lofty/src/ape/tag/mod.rs: tagitems_into_ape", "lofty/src/iff/wav/tag/mod.rs: tagitems_into_riff", "lofty/src/id3/v1/tag.rs: Id3v1TagRef", "lofty/src/id3/v2/util/pairs.rs: format_number_pair"]}
{"id": "C56", "title": "A generic tag that becomes an ID3v2 tag and comes back keeps what ID3v2 can hold", "statement": "Converting a generic tag to ID3v2 (or saving it directly as ID3v2) never panics, and the generic tag that comes back has: for keys with several values, all texts in order; for the others the first (replay gain: the last); genres by name; track and disc numbers with their totals; valid dates; one rating per email; all people with their roles; comments and lyrics with language and description, one per such pair; links; pictures; and nothing else. The order of the set of frames does not matter for any of this. (Publishers beside a label, some MusicBrainz ids, movement numbers, the colour and the second description of two equal comments are lost by the code; witnesses are recorded.)", "quantifier": "every generic tag, every key, both ways of saving, every order in which the set of frames is visited", "why_tests_cant": "There are more than a hundred keys that go through a dozen different rules, and the result of one key may depend on items of another; the tests use one item per key.", "anchors": ["lofty/src/id3/v2/tag.rs: SplitTag, MergeTag, From<Tag>, handle_tag_split", "lofty/src/id3/v2/tag/conversion.rs: from_tag, tag_frames", "lofty/src/id3/v2/util/mappings.rs", "lofty/src/id3/v2/util/pairs.rs"]}
{"id": "C57", "title": "Frames of an ID3v2 tag that a generic tag cannot hold survive editing through the generic tag", "statement": "Splitting an ID3v2 tag gives a generic tag and a remainder. Every frame without a generic form stays in the remainder unchanged and in order; the others show as items or pictures and leave nothing behind; a list of people is divided by role. Whatever is done to the generic tag, merging it into the remainder never panics, keeps every frame of the remainder, and the merged tag shows exactly what the generic tag alone would show. Saving the generic tag together with its remembered remainder keeps the remainder as well. (If the frame with the id of the people list is not a people list, new people are lost; an empty genre frame disappears. Witnesses are recorded.)", "quantifier": "every list of frames of all kinds, every generic tag merged into its remainder, every order of the set of frames", "why_tests_cant": "The remainder may contain any frame, and whether it is kept depends on the kind, the id, the description, the flags and the frames merged into it; tests have one unknown frame.", "anchors": ["lofty/src/id3/v2/tag.rs: SplitTag, MergeTag, handle_tag_split", "lofty/src/id3/v2/tag/conversion.rs: tag_frames, from_tag"]}
{"id": "C58", "title": "The tag of an MP4 file read back is the one that was saved", "statement": "Saving a non-empty tag to an MP4 file and reading the file again gives every atom of that tag, in order and unchanged, whether the file had a tag, had user data without one, or had no user data. Removing the tag and reading again gives no tag. In all cases the brand and the tracks found are those of the file. A file without user data, without `meta` in it, or without `ilst` in that has no tag. If tags are not asked for, none is returned, and without properties no track is looked at. (With two `ilst` the last is replaced but the first is read; a tag that came first in a `meta` without version leaves the file unreadable when removed; witnesses are recorded.)", "quantifier": "every well-formed file below 4 GiB with one `moov`, every non-empty tag that the parser can represent, every padding, both parsing modes; the last sentence for every sequence of bytes", "why_tests_cant": "Whether the reader finds what the writer wrote depends on how both walk over the atoms around the tag, on the offsets that move, and on the padding; tests save to one file.", "anchors": ["lofty/src/mp4/moov.rs: Moov::parse, find, ilst_from_udta", "lofty/src/mp4/read/mod.rs: read_from", "lofty/src/mp4/ilst/write.rs: write_to"]}
{"id": "C59", "title": "Saving comments to an OGG file keeps the audio and everything else", "statement": "If saving comments to an Opus, Vorbis or Speex file succeeds, the new file consists of pages with the same header packets, of which only the comments are replaced, followed by the other pages of the file, of which nothing is changed except page number and checksum; page numbers run from zero and all checksums are right. Reading the new file gives the comments and pictures that were saved, in order, with the vendor string of the old file. Saving the same tag again changes nothing, and saving one tag after another gives what saving the last alone gives. Duration, channels, sample rate and the other properties do not change, except for the bit rates computed from the file size. Saving never panics if file and comments are below 64 GiB. (Pages behind damage are lost, as is all audio if the first audio packet shares a page with the headers, which the OGG mappings forbid; pages of other streams are renumbered. Witnesses are recorded.)", "quantifier": "every file whose header packets can be read, every tag; for reading, tags whose comments and pictures are representable (C12); for properties, files ending with a page in which no page marker occurs again and whose first page has granule position zero", "why_tests_cant": "Changing the comments changes the number of header pages and so every later page; whether the pages behind are cut, renumbered and summed correctly depends on sizes at the 255 and 65025 byte boundaries and on what follows the headers.", "anchors": ["lofty/src/ogg/tag/write.rs: write, create_comments, create_pictures", "lofty/src/ogg/read.rs: read_from", "ogg_pager/src/packets.rs: Packets::write_to", "ogg_pager/src/lib.rs: Page::read, gen_crc"]}
{"id": "C60", "title": "The tags of one file do not disturb each other or the audio", "statement": "An MPEG, AAC, Monkey's Audio, WavPack or Musepack file can carry an ID3v2 tag, an APE tag and an ID3v1 tag. After any sequence of saves of such tags to a file, in any order and number, reading the file gives for each kind exactly the tag last saved, or none if it was last saved empty; the bytes of the audio are still there unchanged, and a save succeeds exactly if its tag can be encoded, whatever other tags there are. The duration, bit rate, sample rate and channels of an MPEG file are those of the audio alone, and the size of the audio of a Monkey's Audio, WavPack or Musepack file is never changed by tags. (ID3v2.4 tags without extended header; AAC files do change their duration, and unread APE tags change that of MPEG files. Witnesses are recorded.)", "quantifier": "every audio of at least 128 bytes that does not itself begin or end like a tag, every sequence of saves of ID3v2.4, APE and ID3v1 tags that are representable (C27, C28, C30, C22), every parse option with tags being read", "why_tests_cant": "The three kinds are found by three searches from both ends of the file, each of which must step over the others; the number of orders in which they are written, replaced and removed is unbounded, as are their sizes.", "anchors": ["lofty/src/mpeg/read.rs: read_from", "lofty/src/aac/read.rs: read_from", "lofty/src/ape/read.rs: read_from", "lofty/src/wavpack/read.rs: read_from", "lofty/src/musepack/read.rs: read_from", "lofty/src/ape/tag/write.rs: write_to", "lofty/src/id3/v1/write.rs: write_id3v1", "lofty/src/id3/v2/write/mod.rs: write_id3v2"]}
{"id": "C61", "title": "Properties of lossless files are those of their headers, and durations are exact", "statement": "For every well-formed header of a FLAC, WAV, AIFF, AIFF-C or Monkey's Audio file, the sample rate, bit depth, number of channels, format and signature reported are those encoded in the header. The duration is the number of samples divided by the sample rate, in milliseconds: rounded to the nearest for WAV and Monkey's Audio, cut off for FLAC and AIFF, exactly so although the latter are computed in floating point. Bit rates of AIFF and Monkey's Audio differ from the exact quotient by at most one half and the error of the computation (1/65536). The 80 bit sample rate of AIFF files is the nearest whole number to the value encoded. Reading WAV properties never panics. (Headers with unnormalised or enormous 80 bit rates, more than 255 channels in a WAV file, a final frame of one block in a Monkey's Audio file: witnesses are recorded.)", "quantifier": "every header that satisfies the format, every value of every field, every size of audio and file (in the ranges given in the theorems)", "why_tests_cant": "The fields are packed bit by bit and the durations pass through several floating point operations; whether one of 2^36 sample counts at one of 2^20 sample rates is off by one millisecond cannot be found by trying.", "anchors": ["lofty/src/flac/properties.rs: read_properties", "lofty/src/iff/wav/properties.rs: read_properties", "lofty/src/iff/aiff/properties.rs: read_properties", "lofty/src/ape/properties.rs: read_properties", "lofty/src/util/math.rs: F80", "lofty/src/util/math.rs: RoundedDivision"]}
{"id": "C62", "title": "Properties of WavPack files are those of their blocks, and saving tags does not change properties", "statement": "For a WavPack file whose first block with audio is a mono or stereo block, the version, sample rate, bit depth, channels and losslessness reported are those of the flags of that block (or of the sub-blocks that follow it, if the rate is not one of the fifteen standard rates or the audio is DSD), and the duration is the number of samples divided by the sample rate. Reading properties never panics and never loops on any bytes. After any sequence of saves of tags to a WavPack or Monkey's Audio file, reading it gives the properties of the audio before, other than the overall bit rate. (Multichannel files at standard rates are reported without channels, and a WavPack file with an ID3v2 tag in front is reported without properties: witnesses are recorded.)", "quantifier": "every sequence of blocks without audio followed by every block, every list of sub-blocks, every sequence of representable saves; for the absence of panics, every sequence of bytes", "why_tests_cant": "The number of blocks and sub-blocks before the fields is unbounded, and the sizes in them are attacker controlled; that no subtraction on any path wraps is a claim about all inputs.", "anchors": ["lofty/src/wavpack/properties.rs: read_properties", "lofty/src/wavpack/properties.rs: get_extended_meta_info", "lofty/src/wavpack/read.rs: read_from", "lofty/src/ape/read.rs: read_from", "lofty/src/ape/properties.rs: read_properties"]}
{"id": "C63", "title": "Properties of MP4 files are those of the first audio track, and saving tags does not change them", "statement": "For a well-formed MP4 file the properties reported are those of the first track with a sound handler, whatever other tracks and atoms there are and wherever they stand: the duration is that of its media header (version 0 or 1) rounded to the nearest millisecond; codec, object type, sample rate, channels, bit depth and bit rate are those of its sample description (AAC and MP3 with an AudioSpecificConfig, Audio Lossless Coding, Apple Lossless, FLAC); the overall bit rate is 8 * size / duration; the bit rate of the audio is computed from the size of the media data if the time table gives durations or no bit rate is given. Saving, creating or removing a tag succeeds and changes none of the properties but the overall bit rate, although the atoms and the media data move. (Object types from 40, explicit sampling frequencies, channel configuration 7, Apple Lossless descriptions of other sizes, several sample entries: witnesses are recorded.)", "quantifier": "every file that is a sequence of atoms of the described form (any number, nesting and order), every header and sample description of the described layouts, every value of their fields, every tag that is representable, every padding and parsing mode", "why_tests_cant": "The layout of an MP4 file is an arbitrary forest of atoms and the fields of interest are bit fields at data-dependent offsets; that a save which moves every atom does not change what is found cannot be enumerated.", "anchors": ["lofty/src/mp4/properties.rs: read_properties", "lofty/src/mp4/properties.rs: read_stsd", "lofty/src/mp4/properties.rs: mp4a_properties", "lofty/src/mp4/properties.rs: alac_properties", "lofty/src/mp4/properties.rs: flac_properties", "lofty/src/mp4/properties.rs: mdat_length", "lofty/src/mp4/read/mod.rs: read_from"]}
{"id": "C64", "title": "Saves to WAV and AIFF files keep the audio, the other tag and the properties", "statement": "For every WAV file of well-formed chunks (any chunks in any order, at most one INFO list and one ID3v2 chunk) and every AIFF or AIFF-C file, and every sequence of saves and removals of ID3v2 tags and of INFO lists or text chunks in any order: every chunk that is neither a tag nor filler is still there, with the same bytes and in the same order; the size in the header of the file is right; the file is read back with exactly the tags last saved, a tag of a kind nothing was saved of being what it was; and all properties but the overall bit rate of the file are the same. A save of a tag that can be encoded succeeds. (An ID3v2 tag at the end of the file must not grow, one in the middle of a WAV file must not shrink by 8 bytes or more if there is a preferred padding: the library then writes wrong files, and witnesses are recorded. Likewise for a second ID3v2 chunk.)", "quantifier": "every list of chunks, every list of saves, every representable tag, both parsing modes, both spellings of the chunk, with and without preferred padding, every depth of nested frames", "why_tests_cant": "The saves of the two kinds of tags use different code that finds places in the file in different ways; that they do not disturb each other or the audio for any layout of the file and any order of saves is a statement about all layouts and orders.", "anchors": ["lofty/src/id3/v2/write/chunk_file.rs: write_to_chunk_file", "lofty/src/id3/v2/write/chunk_file.rs: find_existing_id3v2_tag", "lofty/src/iff/wav/read.rs: read_from", "lofty/src/iff/aiff/read.rs: read_from", "lofty/src/iff/chunk.rs: Chunks", "lofty/src/iff/wav/tag/write.rs: write_riff_info", "lofty/src/iff/aiff/tag/mod.rs: write_to_inner"]}
{"id": "C65", "title": "Picture dimensions are those of the image", "statement": "For every PNG image, width and height are those of its header, the colour depth is the number of bits of all samples of a pixel, and the number of colours is that of the palette, whatever chunks precede it (0 without palette). For every JPEG image they are those of the first baseline or progressive frame, whatever segments precede it. Other pictures have no dimensions; asking for the dimensions always ends and fails only for pictures of less than 8 bytes. (Greyscale with alpha, frames in the first segment, fill bytes, and damaged JPEG images that panic: witnesses are recorded.)", "quantifier": "every width, height, depth and colour type, every list of chunks or segments of any content before and after, every byte string for termination", "why_tests_cant": "The place of the frame or palette in the file depends on any number of segments before it; termination and the absence of failures concern all byte strings.", "anchors": ["lofty/src/picture/mod.rs: PictureInformation::from_picture", "lofty/src/picture/mod.rs: PictureInformation::from_png", "lofty/src/picture/mod.rs: PictureInformation::from_jpeg"]}
{"id": "C66", "title": "Pictures of Vorbis comments and FLAC files: one icon of each kind, everything else kept in order", "statement": "Whatever sequence of insertions, replacements and removals is done, there is never more than one picture of type Icon and one of type OtherIcon. Inserting a picture appends it; if it is an icon, the icon of its kind is removed and returned; all others stay and keep their order. Missing information is taken from the image. Removing by index gives that picture and keeps the others in order, removing a type removes exactly that type, setting replaces exactly one picture. A picture whose information cannot be determined is not inserted. (Setting an icon in place of another picture duplicates it; a failed insertion of an icon loses the old one: witnesses are recorded.)", "quantifier": "every sequence of operations, every storage, every picture", "why_tests_cant": "An invariant over all histories of operations.", "anchors": ["lofty/src/ogg/picture_storage.rs: OggPictureStorage::insert_picture", "lofty/src/ogg/picture_storage.rs: OggPictureStorage::set_picture", "lofty/src/ogg/picture_storage.rs: OggPictureStorage::remove_picture_type", "lofty/src/ogg/picture_storage.rs: OggPictureStorage::remove_picture"]}
{"id": "C67", "title": "Saving dispatches on format and tag type as documented", "statement": "For every file, the format found by its content decides what a save does. A non-empty tag of a type that the format does not have (or has read-only) is refused, and the file is not touched; this holds for generic tags and for tags of a format. A generic tag of a type the format can write is saved exactly like the tag of the format it stands for. Removing a tag is saving the default tag of that type, also for read-only types, and is refused for types the format does not have; saving an empty generic tag of a type that the format has removes that tag. Saving a whole file saves its writable tags in order and skips the others. (Empty tags of other types, which panic or erase other tags, files of a format with read-only tags, which are saved halfway, and the option to remove other tags, which does nothing: witnesses are recorded.)", "quantifier": "every file content, every generic tag, every tag of a format, all options", "why_tests_cant": "The claim ranges over all combinations of format, tag type and content; the documented table of supported tags is the only reference.", "anchors": ["lofty/src/tag/tag_ext.rs: TagExt::save_to", "lofty/src/tag/utils.rs: write_tag", "lofty/src/tag/tag_type.rs: TagType::remove_from", "lofty/src/util/io.rs: VerifiedFile::new", "lofty/src/file/tagged_file.rs: TaggedFile::save_to", "lofty/src/flac/write.rs: write_to", "lofty_attr/src/internal.rs: opt_internal_file_type"]}
{"id": "C68", "title": "Saving tags does not change the type of a file", "statement": "The type of a file is determined from its content, so a save that hides the content makes the file unusable. After any saves of ID3v2, APE and ID3v1 tags around audio of a recognised type, of comments to FLAC, Opus, Vorbis and Speex files, of an ilst to MP4 files, and of ID3v2, INFO and text chunks to WAV and AIFF files, the file is recognised as the type it was before. More generally, neither data behind a file nor an ID3v2 tag in front of MPEG, AAC, Monkey's Audio, Musepack or FLAC data changes the type. (An ID3v2 tag with a footer in front of junk and frames does: a witness is recorded.)", "quantifier": "every file, every sequence of saved tags", "why_tests_cant": "The claim relates the writers of all formats to the detection for all contents; a test can only probe some files.", "anchors": ["lofty/src/probe.rs: Probe::guess_inner", "lofty/src/file/file_type.rs: FileType::from_buffer_inner", "lofty/src/util/io.rs: VerifiedFile::new", "lofty/src/id3/v2/write/mod.rs: write_id3v2", "lofty/src/ogg/tag/write.rs: write_to", "lofty/src/mp4/ilst/write.rs: write_to", "lofty/src/flac/write.rs: write_to_inner"]}
{"id": "C69", "title": "What is saved to a file is what is read from it", "statement": "For every format: a tag is saved to a file, the file is opened anew (its type guessed, its tags read and made generic), and the opened file shows what was saved. Vorbis comments (OGG, FLAC): one tag with every non-empty text of every supported key, in order, and all pictures with their types and descriptions. MPEG, AAC, Monkey's Audio, Musepack, WavPack: after any sequence of saves the file has no tag of a type of which none was saved, and of each other type shows the last one saved: ID3v1 texts cut to their fields, APE texts in order, ID3v2 the items of the conversion. WAV, AIFF: the same, and tag types that were not saved stay as they were. MP4: texts in order, the last number of each kind, pictures without their types. (Empty texts vanish in some formats, and the encoder of OGG files appears in tags that had none: witnesses are recorded.)", "quantifier": "every generic tag and every sequence of generic tags that the formats can hold, every file of the layouts of the theorems about saves", "why_tests_cant": "The claim composes conversion, writer, detection, reader and conversion back, for nine formats and all tags; a test can only probe some tags and files.", "anchors": ["lofty/src/tag/tag_ext.rs: TagExt::save_to", "lofty/src/tag/utils.rs: write_tag", "lofty/src/probe.rs: Probe::read", "lofty/src/flac/mod.rs: From<FlacFile> for TaggedFile", "lofty_attr/src/lofty_file.rs: generate_from_taggedfile_impl", "lofty/src/ogg/tag.rs: create_vorbis_comments_ref", "lofty/src/mp4/ilst/mod.rs: Ilst", "lofty/src/id3/v2/tag.rs: Id3v2Tag", "lofty/src/ape/tag/mod.rs: ApeTag", "lofty/src/iff/wav/tag/mod.rs: RiffInfoList", "lofty/src/iff/aiff/tag/mod.rs: AiffTextChunks"]}
{"id": "C70", "title": "A file that is read in strict mode is read alike in the other parsing modes", "statement": "If a file of any format is opened successfully in the strict parsing mode, then opening it in the default or the relaxed mode succeeds as well and shows the same tags with the same items and pictures, and the same properties: the other modes only differ on files that strict mode rejects. (It fails for MPEG files with an ID3v2 tag behind junk, which strict mode does not look for: the other modes show one tag more, or fail if the tag is broken; a witness is recorded.)", "quantifier": "every file, all three parsing modes, every value of the other parse options", "why_tests_cant": "The mode is consulted in dozens of places, in every parser; a difference between the modes on valid input only shows on the one input that reaches it.", "anchors": ["lofty/src/config/parse_options.rs: ParsingMode", "lofty/src/probe.rs: Probe::read", "lofty/src/mpeg/read.rs: read_from", "lofty/src/id3/v2/read.rs: parse_id3v2", "lofty/src/id3/v2/frame/content.rs: parse_content", "lofty/src/tag/items/timestamp.rs: Timestamp::parse", "lofty/src/id3/v1/read.rs: parse", "lofty/src/ogg/read.rs: read_comments", "lofty/src/flac/read.rs: read_from", "lofty/src/iff/chunk.rs: Chunks::next", "lofty/src/mp4/atom_info.rs: AtomInfo::read", "lofty/src/mp4/ilst/read.rs: parse_ilst", "lofty/src/mp4/properties.rs: read_properties", "lofty/src/wavpack/properties.rs: read_properties", "lofty/src/ape/properties.rs: read_properties"]}
{"id": "C71", "title": "Opening a file never panics and always ends", "statement": "Opening any sequence of bytes as a file (guessing its type and reading its tags, without properties) gives tags or an error: it does not panic, and it does not loop for ever, whatever the bytes and the parse options are. (It fails for crafted WavPack, Monkey's Audio, FLAC, Ogg and MP4 files; what such files look like is stated exactly enough to show that all others are safe, and there is a witness for each.)", "quantifier": "every sequence of bytes, every value of the parse options", "why_tests_cant": "The readers run on untrusted input of any length; fuzzing samples a vanishing part of it, and each of the panics found needs several fields to agree.", "anchors": ["lofty/src/probe.rs: Probe::guess_file_type, Probe::read", "lofty/src/mpeg/read.rs: read_from", "lofty/src/aac/read.rs: read_from", "lofty/src/ape/read.rs: read_from", "lofty/src/wavpack/read.rs: read_from", "lofty/src/musepack/read.rs: read_from", "lofty/src/iff/wav/read.rs: read_from", "lofty/src/iff/aiff/read.rs: read_from", "lofty/src/iff/chunk.rs: Chunks", "lofty/src/flac/read.rs: read_from", "lofty/src/ogg/read.rs: read_from", "lofty/src/ogg/tag/read.rs: read_comments", "lofty/src/mp4/atom_info.rs: AtomInfo::read", "lofty/src/mp4/moov.rs: Moov::parse", "lofty/src/id3/v2/read.rs: parse_id3v2", "lofty/src/picture/mod.rs: from_flac_bytes"]}
{"id": "C72", "title": "The accessors of every tag agree with their calls", "statement": "For the generic tag and the tag of every format: after any sequence of set_x and remove_x calls on any tag, x() gives the value set last, or nothing if it was removed last, and what it gave before if it was never called; the ten fields (artist, title, album, genre, comment, track, track_total, disk, disk_total, date) do not influence each other. (It fails in places: an ID3v2 date can never be set; numbers and totals share a value in ID3v2, APE and MP4 tags, so removing the number removes the total and a missing one shows as 0; repeated keys of Vorbis comments and RIFF INFO lists; values a format has no room for. The conditions under which it holds are stated per format, with witnesses for the others.)", "quantifier": "every tag, every sequence of calls, every value of the argument types", "why_tests_cant": "Tests set one field of one tag and read it back; the influence of fields on each other appears in sequences of calls on tags with other content, of which there are infinitely many.", "anchors": ["lofty/src/tag/accessor.rs: Accessor", "lofty/src/tag/mod.rs: impl Accessor for Tag", "lofty/src/id3/v1/tag.rs: impl Accessor for Id3v1Tag", "lofty/src/id3/v2/tag.rs: impl Accessor for Id3v2Tag", "lofty/src/ogg/tag.rs: impl Accessor for VorbisComments", "lofty/src/ape/tag/mod.rs: impl Accessor for ApeTag", "lofty/src/mp4/ilst/mod.rs: impl Accessor for Ilst", "lofty/src/iff/wav/tag/mod.rs: impl Accessor for RiffInfoList", "lofty/src/iff/aiff/tag/mod.rs: impl Accessor for AiffTextChunks"]}
{"id": "C73", "title": "The accessors leave everything else alone", "statement": "For the generic tag and the tag of every format with more than the ten fields: any sequence of set_x and remove_x calls leaves every item that belongs to none of the fields called exactly as it was (its key, its value, how often it occurs), as well as pictures, vendor strings and versions; in the generic tag, APE tags and RIFF INFO lists also their order. In particular comments with a description survive set_comment and remove_comment on an ID3v2 tag.", "quantifier": "every tag (also with repeated keys), every sequence of calls, every value", "why_tests_cant": "Tests look at the field they have set; that no other item of no other tag is touched by any sequence of calls cannot be sampled.", "anchors": ["lofty/src/tag/accessor.rs: Accessor", "lofty/src/tag/mod.rs: insert, remove_key", "lofty/src/id3/v2/tag.rs: set_comment, remove_comment", "lofty/src/id3/v2/frame/list.rs: insert, remove", "lofty/src/ogg/tag.rs: insert, remove", "lofty/src/ape/tag/mod.rs: insert, remove", "lofty/src/mp4/ilst/mod.rs: replace_atom, remove", "lofty/src/iff/wav/tag/mod.rs: insert, remove", "lofty/src/iff/aiff/tag/mod.rs: impl Accessor for AiffTextChunks"]}
{"id": "C74", "title": "Removing a tag removes that tag and nothing else", "statement": "From a file of every format, removing the tag of any type the format has (also of the types that are read-only in it) succeeds, and the file opens before and after. Afterwards it shows no tag of that type, and of every other type the very tag it showed before. In OGG files, where comments are mandatory, nothing but the encoder is left in the tag.", "quantifier": "every file of MPEG, AAC, Monkey's Audio, Musepack and WavPack with any tags that were saved to it or removed from it in any order; every WAV and AIFF file with at most one tag of each type, whatever its other chunks; every FLAC stream of any blocks, with or without ID3v2 tag in front; every OGG file with well-formed headers; every MP4 file of any atoms around the tag; every type of tag of the format", "why_tests_cant": "Tests remove one tag from one file of each format; that no other tag is damaged needs all the combinations of tags and their order in the file, all blocks and chunks, and all sizes.", "anchors": ["lofty/src/tag/tag_type.rs: TagType::remove_from", "lofty/src/tag/tag_ext.rs: TagExt::remove_from", "lofty/src/tag/utils.rs: dump_tag, write_tag", "lofty/src/id3/v2/write/mod.rs: write_id3v2", "lofty/src/id3/v1/write.rs: write_id3v1", "lofty/src/ape/tag/write.rs: write_to", "lofty/src/flac/write.rs: write_to_inner", "lofty/src/ogg/tag/write.rs: write_to", "lofty/src/mp4/ilst/write.rs: write_to", "lofty/src/iff/wav/tag/write.rs: write_riff_info", "lofty/src/iff/aiff/tag/mod.rs: write_to_inner", "lofty/src/probe.rs: Probe::read"]}
{"id": "C75", "title": "Not reading the properties changes nothing but the properties", "statement": "With read_properties(false) every file that can be read with properties can be read as well, and shows the very same tags. The properties it then shows are the same for all files of the format: zero or none. What is shown of the tags is what opening the file for its tags shows.", "quantifier": "every sequence of bytes of every format except MP4, with every combination of the other options and parsing modes; every MP4 file of well-formed atoms with at most one piece of user data, in moov", "why_tests_cant": "Tests read assets with both settings; that the tag readers do not depend on the property readers needs all inputs, as both share the position in the file, the chunk loops and the failure paths.", "anchors": ["lofty/src/config/parse_options.rs: ParseOptions::read_properties", "lofty/src/iff/wav/read.rs: read_from", "lofty/src/iff/aiff/read.rs: read_from", "lofty/src/flac/read.rs: read_from", "lofty/src/ogg/read.rs: read_from", "lofty/src/mp4/read/mod.rs: read_from", "lofty/src/mpeg/read.rs: read_from", "lofty/src/aac/read.rs: read_from", "lofty/src/ape/read.rs: read_from", "lofty/src/musepack/read.rs: read_from", "lofty/src/wavpack/read.rs: read_from", "lofty/src/properties/file_properties.rs: FileProperties"]}
{"id": "C76", "title": "Not reading the tags changes nothing but the tags", "statement": "With read_tags(false) every file that can be read with tags can be read as well, and shows the very same properties and no tags. (OGG files show an empty tag with an empty encoder; FLAC files show one if they have pictures.)", "quantifier": "every sequence of bytes of AIFF, FLAC, OGG (all three) and WavPack; of MPEG, AAC, Monkey's Audio and Musepack unless a tag of a kind listed as a disagreement is found in it; every WAV file of well-formed chunks; every MP4 file of well-formed atoms with at most one piece of user data, in moov", "why_tests_cant": "Tests read assets with both settings; whether skipping a tag ends at the same place as reading it depends on the content of the tag, its size and what surrounds it.", "anchors": ["lofty/src/config/parse_options.rs: ParseOptions::read_tags", "lofty/src/iff/wav/read.rs: read_from", "lofty/src/iff/aiff/read.rs: read_from", "lofty/src/flac/read.rs: read_from", "lofty/src/ogg/read.rs: read_from", "lofty/src/mp4/read/mod.rs: read_from", "lofty/src/mpeg/read.rs: read_from", "lofty/src/aac/read.rs: read_from", "lofty/src/ape/read.rs: read_from", "lofty/src/musepack/read.rs: read_from", "lofty/src/wavpack/read.rs: read_from", "lofty/src/id3/mod.rs: find_id3v2, find_id3v1", "lofty/src/ape/tag/read.rs: read_ape_tag"]}
{"id": "C77", "title": "Not reading pictures changes nothing but the pictures", "statement": "With read_cover_art(false) every file that can be read with pictures can be read as well; it shows the very same properties and, tag by tag, tags of the same types with the same items (their order aside) and no pictures.", "quantifier": "every sequence of bytes of every format except MP4, with every combination of the other options and parsing modes (with implicit conversions, all items but the recording date); every MP4 file of well-formed atoms whose tag is one that the library writes", "why_tests_cant": "Tests read assets with pictures switched off and look at single fields; whether skipping a picture ends at the same place as parsing it, and whether the rest of the tag is then treated alike, depends on the content of the picture and on everything around it.", "anchors": ["lofty/src/config/parse_options.rs: ParseOptions::read_cover_art", "lofty/src/id3/v2/frame/read.rs: ParsedFrame::read", "lofty/src/id3/v2/read.rs: parse_id3v2, construct_tdrc_from_v3", "lofty/src/ape/tag/read.rs: read_ape_tag_with_header", "lofty/src/ogg/read.rs: read_comments", "lofty/src/flac/read.rs: read_from", "lofty/src/mp4/ilst/read.rs: parse_ilst, handle_covr"]}
{"id": "C78", "title": "The last save of each tag decides", "statement": "What a file holds after any number of saves depends only on the last tag of each type that was saved: earlier saves that were saved over, and the order in which different types were saved, leave no trace, byte for byte. In particular saving the same tag a second time succeeds and changes nothing.", "quantifier": "every audio that has no tags yet and every sequence of saves of ID3v2, APE and ID3v1 tags; every FLAC file and tag; every OGG file and tag; every WAV or AIFF file of well-formed chunks and every tag; every MP4 file of well-formed atoms and every tag; every preferred padding", "why_tests_cant": "Tests save once and read back. Whether the bytes of an earlier tag, its padding, or the place of another tag influence a later save can only be seen over all histories of saves; a leftover byte is invisible to reading back.", "anchors": ["lofty/src/id3/v2/write/mod.rs: write_id3v2", "lofty/src/id3/v1/write.rs: write_id3v1", "lofty/src/ape/tag/write.rs: write_to", "lofty/src/id3/v2/write/chunk_file.rs: write_to_chunk_file", "lofty/src/iff/wav/tag/write.rs: write_riff_info", "lofty/src/iff/aiff/tag/mod.rs: write_to_inner", "lofty/src/flac/write.rs: write_to_inner", "lofty/src/ogg/tag/write.rs: write_to", "lofty/src/mp4/ilst/write.rs: write_to, save_to_existing"]}
{"id": "C79", "title": "An opened file shows the properties of its audio", "statement": "Whoever opens a file and asks for its properties gets what the headers of its audio say: sample rate, bit depth, channels, channel mask and bit rate of the stream, and the duration to the nearest millisecond; through whatever chunks, blocks, packets and tags surround the headers, after any saves of tags, and through the conversion into the properties common to all formats.", "quantifier": "every file of every format that is opened with its properties read; every header within the sizes of its fields; all chunks, blocks and tags around it", "why_tests_cant": "Tests compare the properties of some ten sample files. Each passes through the reader of the container, the header, the arithmetic of durations and a conversion that reorders fields of equal types; only all headers together show that no field is swapped, cut or taken from another place.", "anchors": ["lofty/src/properties/file_properties.rs: FileProperties", "lofty/src/file/file_type.rs", "lofty/src/flac/properties.rs: read_properties", "lofty/src/iff/wav/properties.rs: read_properties", "lofty/src/iff/aiff/properties.rs: read_properties, From<AiffProperties> for FileProperties", "lofty/src/wavpack/properties.rs: read_properties", "lofty/src/ape/properties.rs: read_properties", "lofty/src/ogg/opus/properties.rs: read_properties", "lofty/src/ogg/vorbis/properties.rs: read_properties", "lofty/src/ogg/speex/properties.rs: read_properties", "lofty/src/mpeg/properties.rs: read_properties", "lofty/src/aac/properties.rs", "lofty/src/musepack/sv8/properties.rs", "lofty/src/musepack/sv7/properties.rs", "lofty/src/musepack/sv4to6/properties.rs", "lofty/src/mp4/properties.rs: read_properties"]}
{"id": "C80", "title": "The checksum in an ID3v2 tag is the CRC-32 of its contents and detects corruption", "statement": "A tag written with a checksum carries, in its extended header, the CRC-32 (polynomial 0x04C11DB7, reflected, all ones at the start, inverted at the end) of everything between the extended header and the footer, as five groups of seven bits; so contents that differ only within 32 consecutive bits are written with different checksums.", "quantifier": "every content of every length; every tag that can be written with a checksum, in both versions, with or without footer, padding and restrictions", "why_tests_cant": "The code has one test, of one frame, whose expected bytes were copied from its output. Table, register, bit order and the groups of seven bits can each be wrong in ways that show only for other contents, and that a checksum detects corruption is a statement about all pairs of contents.", "anchors": ["lofty/src/id3/v2/write/mod.rs: calculate_crc, CRC32_TABLE, create_tag, create_tag_header", "lofty/src/id3/v2/header.rs: Id3v2TagFlags::crc"]}
{"id": "C81", "title": "Timestamps sort like their texts, and equal frames hash alike", "statement": "Comparing timestamps is a total order in which the coarsest differing component decides and only a timestamp itself is equal to it; the printed texts of timestamps are ordered the same way, so sorting the texts sorts the dates. For ID3v2 frames, equality is an equivalence and equal frames give every hasher the same data, so hash sets and maps of frames work.", "quantifier": "every pair (triple) of timestamps; every pair of texts that can be read as timestamps; every pair of frames, including nested ones, and every hasher", "why_tests_cant": "Equality, hash and order are written by hand in some twenty places that have to agree with each other; a disagreement shows only for particular pairs of values and particular hash tables.", "anchors": ["lofty/src/tag/items/timestamp.rs: Ord for Timestamp, Display for Timestamp", "lofty/src/id3/v2/items/*.rs: PartialEq, Hash and Ord of the frames", "lofty/src/id3/v2/frame/mod.rs: Frame"]}
{"id": "C82", "title": "A dumped tag is what a save puts into the file", "statement": "Dumping a tag gives exactly the bytes that saving it with the same options puts into a file: whenever a save succeeds, the dump succeeds too and its bytes stand in the saved file in one piece. Empty tags are dumped as nothing.", "quantifier": "every tag (APE, ID3v1, ID3v2, MP4, Vorbis comments, RIFF INFO, AIFF text; typed or generic), all options, every file it can be saved to", "why_tests_cant": "Dumping and saving share encoders but not the code around them, which adjusts flags, vendors, sizes and padding per file format; comparing the two on a few files says nothing about the other combinations of tag, options and file.", "anchors": ["lofty/src/tag/tag_ext.rs: TagExt::dump_to, TagExt::save_to", "lofty/src/tag/utils.rs: dump_tag, write_tag", "lofty/src/id3/v2/write/mod.rs: write_id3v2, create_tag", "lofty/src/ogg/tag.rs: VorbisCommentsRef::dump_to"]}
{"id": "C83", "title": "Custom resolvers are found, and nothing else changes", "statement": "Whatever the threads of a program do and in whatever order they get hold of the registry: a registered resolver stays registered under its name; extensions and contents that just one resolver claims get its type and are read by it, independently of the order of the registry; extensions and contents that no resolver claims, and everything seen by a thread that has switched resolvers off, are detected exactly as without resolvers; a registration or lookup that fails changes nothing for anyone else.", "quantifier": "every interleaving of calls of any number of threads, every set of resolvers (arbitrary extensions and guessing functions, also ones that panic), every iteration order of the registry, every file and extension", "why_tests_cant": "The registry is global state shared by all threads and iterated in a random order, and its lock is poisoned by panics; a test process sees one order, one registration and no history.", "anchors": ["lofty/src/resolve.rs: register_custom_resolver, lookup_resolver", "lofty/src/file/file_type.rs: FileType::from_ext, FileType::primary_tag_type, FileType::tag_support", "lofty/src/probe.rs: Probe::guess_inner, Probe::read_inner", "lofty/src/config/global_options.rs: apply_global_options"]}
{"id": "C84", "title": "Saving does not depend on the position of the file's cursor", "statement": "Saving a tag to an open file (also an empty one, which removes it) gives the same file wherever the caller has left the cursor, as long as the file is recognised there as the same format: nothing in front of the cursor is lost, and nothing is put in another place than it would be in a file just opened.", "quantifier": "every tag of every format, all write options, every file and every position of the cursor", "why_tests_cant": "Tests save to files they have just opened or rewound; a file handle that was read from before can be at any position, and what is lost there is audio.", "anchors": ["lofty/src/tag/tag_ext.rs: TagExt::save_to", "lofty/src/util/io.rs: VerifiedFile::new", "lofty/src/id3/v2/write/mod.rs: write_id3v2", "lofty/src/ogg/tag/write.rs: write", "lofty/src/ape/tag/write.rs: write_to, find_existing_ape_tags", "lofty/src/mp4/ilst/write.rs: write_to", "lofty/src/flac/write.rs: write_to_inner", "lofty/src/id3/v1/write.rs: write_id3v1"]}
{"id": "C85", "title": "Removing a tag from a path removes it", "statement": "Removing a tag from a file named by a path leaves the file as removing it from the opened file does; if that is not possible, an error is reported and the file is unchanged. Success is only reported if the tag is gone.", "quantifier": "every tag type, all write options, every file content and every extension", "why_tests_cant": "That a call reports success only if the file is as promised is a claim about all contents and formats; the repository has no test of the function at all.", "anchors": ["lofty/src/tag/tag_type.rs: TagType::remove_from_path, TagType::remove_from", "lofty/src/tag/tag_ext.rs: TagExt::save_to_path, TagExt::remove_from_path", "lofty/src/util/io.rs: VerifiedFile::new_from_path, FileSource", "lofty/src/probe.rs: Probe::open", "lofty/src/file/file_type.rs: FileType::from_path, FileType::from_ext"]}
{"id": "C86", "title": "Files cannot make the unsafe code undefined", "statement": "Whatever sizes and bytes a file contains: a buffer whose size the file decides is either refused or has exactly that many initialised elements, and is never written outside of its memory, whatever the allocator and the elements' clone function do; a size over the allocation limit is refused before memory is asked for; and the keys of Vorbis comments that become strings without a check are valid UTF-8.", "quantifier": "every size, limit and element type, every behaviour of the allocator and of the clone function, every byte sequence of a key", "why_tests_cant": "Undefined behaviour shows in tests only by accident; the sizes come from files, and the failing allocator or clone does not occur in a test.", "anchors": ["lofty/src/util/alloc.rs: fallible_repeat, fallible_vec_from_element, try_with_capacity_stable", "lofty/src/macros.rs: try_vec", "lofty/src/ogg/tag/read.rs: read_comments, valid_vorbis_comments_key"]}
{"id": "C87", "title": "A save that fails does not damage the file", "statement": "If saving a tag to a file fails, for whatever reason, everything that was in the file is still there: if the library refuses the tag or the file, the file is left exactly as it was; if the device is full, at most something was added behind it. If one of several tags of a file cannot be saved, none is.", "quantifier": "every kind of tag and of file, every content of both, every write option, every size of the device", "why_tests_cant": "Tests save tags that can be saved to files on devices with space; the order of checks and writes on the many failing paths is not observed.", "anchors": ["lofty/src/tag/tag_ext.rs: TagExt::save_to", "lofty/src/file/tagged_file.rs: save_to", "lofty_attr/src/lofty_file.rs: get_save_to_body", "lofty/src/id3/v2/write/mod.rs: write_id3v2", "lofty/src/id3/v2/write/chunk_file.rs: write_to_chunk_file", "lofty/src/id3/v1/write.rs: write_id3v1", "lofty/src/ape/tag/write.rs: write_to, write_tag", "lofty/src/flac/write.rs: write_to_inner, replace_range", "lofty/src/ogg/tag/write.rs: write", "lofty/src/mp4/ilst/write.rs: write_to", "lofty/src/mp4/write.rs: save_to", "lofty/src/iff/wav/tag/write.rs: write_riff_info", "lofty/src/iff/aiff/tag/mod.rs: write_to_inner"]}
{"id": "C88", "title": "A bound file reflects the file on disk", "statement": "A file that was opened for editing and keeps its handle is, after every successful save, in step with the file on disk: reopening the file shows exactly the tags that are in memory, tag by tag. Changes that were not saved never reach the file.", "quantifier": "every history of inserting, removing, clearing, editing and saving tags, with every write option, on every file", "why_tests_cant": "Tests save once after one insertion; nothing compares memory and file after longer histories, or after removals.", "anchors": ["lofty/src/file/tagged_file.rs: BoundTaggedFile, read_from, save, into_inner", "lofty/src/file/tagged_file.rs: TaggedFile::save_to, insert_tag, remove, clear", "lofty/src/tag/mod.rs: is_empty"]}
{"id": "C89", "title": "Tags compare as equal exactly if they hold the same", "statement": "Two ID3v2 tags, and two MP4 tags, are equal under == exactly if they hold the same items with the same contents in the same order. Equality is an equivalence, and tags that are equal stay equal when the same edits are made to both.", "quantifier": "every two tags, read from whatever bytes or built and edited in whatever way", "why_tests_cant": "Tests use == as their oracle: what it ignores, no test that compares a tag with an expected tag can see. That equality is a congruence for all histories of edits cannot be sampled.", "anchors": ["lofty/src/id3/v2/tag.rs: Id3v2Tag, derived PartialEq", "lofty/src/id3/v2/frame/list.rs: FrameList, derived PartialEq", "lofty/src/id3/v2/frame/mod.rs: Frame, derived PartialEq", "lofty/src/id3/v2/items: PartialEq implementations", "lofty/src/mp4/ilst/atom.rs: Atom, AtomDataStorage, derived PartialEq", "lofty/src/mp4/ilst/mod.rs: Ilst, derived PartialEq, split_tag"]}
{"id": "C90", "title": "A picture stored in an APE item, or read from an image file, comes back as it was", "statement": "The bytes that a picture is stored as in an APE item are read back, under the key of its type, as the same picture. Reading accepts exactly a description, a NUL and an image in a known format, and never panics. Reading an image file accepts exactly the known formats and keeps every byte.", "quantifier": "every picture, every key and all bytes", "why_tests_cant": "A round trip over all descriptions and images, and an exact description of what is accepted, cannot be sampled; tests use ASCII descriptions.", "anchors": ["lofty/src/picture/mod.rs: Picture::{as_ape_bytes,from_ape_bytes,from_reader,mimetype_from_bin}"]}
{"id": "C91", "title": "Several values of a field are kept apart", "statement": "The values that are reported for an ID3v2 text frame or an APE item are exactly those texts without NUL that joined by NUL give its text. Several values put into a frame, or pushed onto an APE key one after the other, are reported in that order.", "quantifier": "every tag, every number of values and all texts", "why_tests_cant": "Induction over the values and over the text; tests use one or two values.", "anchors": ["lofty/src/id3/v2/frame/list.rs: FrameList::{get_text,get_texts,insert}", "lofty/src/ape/tag/item.rs: ApeItem::text_values", "lofty/src/ape/tag/mod.rs: ApeTag::push"]}
{"id": "C92", "title": "The length, emptiness and contents of a tag agree", "statement": "A tag of any kind is empty exactly if it has no items, and a cleared tag has none and keeps its type. A tag contains a key exactly if it can be asked for it, or, where tags hold single fields, exactly if its generic form contains it. Inserting an item makes an APE tag longer exactly if the key was not there. A link frame that was read, and then changed any number of times, can be written with every option.", "quantifier": "every tag of every kind, every key, and all sequences of changes of a link", "why_tests_cant": "It ties several questions about a tag together for all tags and keys; tests ask one of them on a handful of tags.", "anchors": ["lofty/src/ape/tag/mod.rs: ApeTag::{len,contains,is_empty,clear,insert}", "lofty/src/id3/v1/tag.rs: TagExt for Id3v1Tag", "lofty/src/id3/v2/tag.rs: TagExt for Id3v2Tag", "lofty/src/mp4/ilst/mod.rs: TagExt for Ilst", "lofty/src/ogg/tag.rs: TagExt for VorbisComments", "lofty/src/iff/wav/tag/mod.rs: TagExt for RiffInfoList", "lofty/src/iff/aiff/tag/mod.rs: TagExt for AiffTextChunks", "lofty/src/tag/mod.rs: TagExt for Tag", "lofty/src/id3/v2/items/url_link_frame.rs: UrlLinkFrame::{parse,set_url,as_bytes}"]}
{"id": "C93", "title": "The channel mask of a file names as many speakers as it has channels", "statement": "If the properties of an opened file include a channel mask, it names exactly as many speakers as the properties say there are channels. An Opus file always has a mask, with the speakers that RFC 7845 gives for its number of channels; the mask of an AAC file has the speakers that ISO 14496-3 gives for its channel configuration. Formats without layout information show no mask.", "quantifier": "every file of every format that can be opened, with or without reading tags", "why_tests_cant": "It relates two fields of the properties for all files, and needs all rows of the layout tables; the tests of the repository have mono and stereo files only.", "anchors": ["lofty/src/properties/channel_mask.rs: ChannelMask::{from_opus_channels,from_mp4_channels,mono,stereo}", "lofty/src/aac/properties.rs: read_properties", "lofty/src/mpeg/properties.rs: From<MpegProperties> for FileProperties", "lofty/src/ogg/opus/properties.rs: read_properties", "lofty/src/iff/wav/properties.rs: read_properties", "lofty/src/wavpack/properties.rs: read_properties"]}
{"id": "C94", "title": "The frames of an ID3v2.2 tag are read with their meaning", "statement": "A file whose tag is ID3v2.2 (three letter frame ids) is read as the same texts, comments, links, people, pictures and other frames, in the same order, under the ids of ID3v2.4 that have the same meaning. No other id is renamed, padding and unsynchronisation change nothing. What such a tag says about the recording, its artists and its date is what the file shows.", "quantifier": "every ID3v2.2 tag, with any number of frames of any kind whose bodies the standard allows, any padding, any unsynchronisation", "why_tests_cant": "The table of ids has 71 rows and every kind of frame has its own parser that looks at the version; the tests of the repository read a few ID3v2.2 tags.", "anchors": ["lofty/src/id3/v2/util/upgrade.rs: upgrade_v2, V2_KEYS", "lofty/src/id3/v2/frame/header/parse.rs: parse_v2_header", "lofty/src/id3/v2/frame/read.rs: ParsedFrame::read", "lofty/src/id3/v2/frame/content.rs: parse_content, verify_encoding", "lofty/src/id3/v2/items/attached_picture_frame.rs: AttachedPictureFrame::parse", "lofty/src/id3/v2/write/frame.rs: create_items"]}
{"id": "C95", "title": "The date of a recording in an ID3v2.3 tag is shown in full", "statement": "An ID3v2.3 tag gives the year, the day and month, and the time of a recording in three text frames, which may stand anywhere in the tag. With implicit conversions (the default), reading such a tag gives one recording date that says all of it; without a time it says the day, without a day the year. All other frames are those of the tag, and a date that a tag already gives in one frame is kept.", "quantifier": "every ID3v2.3 tag of frames that can be read, with the parts of the date in any order and encoding, any other frames around them and any padding", "why_tests_cant": "The parts are combined after reading, whatever their order and whatever frames are around them; the tests of the repository combine them in one order in one tag.", "anchors": ["lofty/src/id3/v2/read.rs: construct_tdrc_from_v3, parse_id3v2", "lofty/src/id3/v2/util/upgrade.rs: upgrade_v3", "lofty/src/id3/v2/frame/header/parse.rs: parse_header", "lofty/src/config/parse_options.rs: ParseOptions::implicit_conversions"]}
{"id": "C96", "title": "Several ID3v2 tags at the start of an MPEG file are read as one, and saving replaces them", "statement": "When an MPEG file begins with several ID3v2 tags, reading it gives one tag: the first, with the frames of the others inserted in order, so that what a later tag says of a text is what is read. The tags of other kinds and the properties of the audio are those of the file without these tags. Saving an ID3v2 tag to such a file makes it the tag that is read afterwards, and removing it leaves the file without ID3v2 tag.", "quantifier": "every MPEG file with any number of ID3v2 tags in front of its audio and any APE and ID3v1 tags behind it; every tag saved to it", "why_tests_cant": "It is a statement about reading after writing for any number of tags; the tests of the repository read one file with two tags and never save to it.", "anchors": ["lofty/src/mpeg/read.rs: read_from", "lofty/src/id3/v2/write/mod.rs: write_id3v2", "lofty/src/id3/mod.rs: find_id3v2", "lofty/src/id3/v2/frame/list.rs: FrameList::insert", "lofty/src/tag/tag_type.rs: TagType::remove_from"]}
{"id": "C97", "title": "Several INFO lists or ID3v2 chunks in a WAV file are read as one tag, and saving replaces them", "statement": "When a WAV file has several INFO lists, reading it gives one tag with the items of all of them in order; of several ID3v2 chunks it gives the first tag with the frames of the others inserted in order. Saving a tag to such a file makes it the tag that is read afterwards, and removing it leaves the file without a tag of this kind. The same holds of ID3v2 chunks in AIFF files.", "quantifier": "every WAV file with any number of INFO lists and ID3v2 chunks anywhere between its other chunks; every list of items saved to it", "why_tests_cant": "It is a statement about reading after writing for any number of lists; the tests of the repository have no such file, only a comment that all tags in the file are merged.", "anchors": ["lofty/src/iff/wav/read.rs: read_from", "lofty/src/iff/wav/tag/write.rs: write_riff_info, find_info_list", "lofty/src/id3/v2/write/chunk_file.rs: find_existing_id3v2_tag, write_to_chunk_file", "lofty/src/iff/aiff/read.rs: read_from"]}
{"id": "C98", "title": "The ratings of a tag are the same after it is saved and opened again", "statement": "A rating that is inserted into a tag as its text is what the ratings of the tag show, and when the tag is saved to a file and the file is opened, the tag shows the same ratings: the address, the stars and the number of plays of each. Formats that have no ratings refuse them when they are inserted.", "quantifier": "every tag with any ratings (and other texts), every file of the supported formats, every player's mapping of stars", "why_tests_cant": "The tests read ratings of single sample frames; that no combination of address, stars, plays and format loses a rating is a statement about all tags and files, and it fails for a format that the tests of ratings do not open.", "anchors": ["lofty/src/tag/mod.rs: Tag::ratings, Tag::insert_text, Tag::push", "lofty/src/tag/items/popularimeter.rs: Popularimeter::from_str, fmt", "lofty/src/iff/wav/tag/mod.rs: tagitems_into_riff", "lofty/src/ogg/tag.rs: create_vorbis_comments_ref, VorbisComments::merge_tag, VorbisComments::split_tag", "lofty/src/mp4/ilst/mod.rs: Ilst::split_tag", "lofty/src/id3/v2/tag/conversion.rs: from_tag"]}
{"id": "C99", "title": "The pictures of a tag are the same after it is saved and opened again", "statement": "When a tag with pictures is saved to a file and the file is opened, the tag shows the same pictures in the same order, with their types, descriptions, image formats and data. A file that is opened and whose tag is saved without a change keeps the pictures it has.", "quantifier": "every tag with any pictures that its format can hold, every file of the supported formats", "why_tests_cant": "The tests write single covers to sample files of some formats; that no format loses a picture is a statement about all tags and files, and it fails for APE tags, whose conversion is tested but whose direct save is not.", "anchors": ["lofty/src/ape/tag/mod.rs: tagitems_into_ape, ApeTag::split_tag, ApeTag::merge_tag", "lofty/src/tag/tag_ext.rs: TagExt::save_to", "lofty/src/tag/utils.rs: write_tag", "lofty/src/id3/v2/tag/conversion.rs: tag_frames", "lofty/src/ogg/tag.rs: create_vorbis_comments_ref", "lofty/src/flac/mod.rs: From<FlacFile> for TaggedFile", "lofty/src/mp4/ilst/mod.rs: Ilst::split_tag, Ilst::merge_tag"]}
{"id": "C100", "title": "The allocation limit refuses single items only, and never a file that was just saved", "statement": "GlobalOptions::allocation_limit never changes what is read: a file is read as without the limit, or an error says that the limit is exceeded. It applies to single items of a tag, as documented. A tag that is saved without an error is read again with the same limit.", "quantifier": "every limit, every file, every tag", "why_tests_cant": "The limit is 16 MiB by default and the tests use small files; that it only refuses, and when, is a statement about all limits and all files. The last two sentences are false for OGG, WAV and AIFF files, and the last one for APE tags.", "anchors": ["lofty/src/config/global_options.rs: GlobalOptions::allocation_limit", "lofty/src/util/alloc.rs: fallible_repeat", "lofty/src/ogg/tag/read.rs: read_comments", "lofty/src/ogg/tag/write.rs: write", "lofty/src/iff/chunk.rs: Chunk::read_size, Chunk::id3_chunk", "lofty/src/iff/wav/read.rs: read_from", "lofty/src/iff/aiff/read.rs: read_from", "lofty/src/id3/mod.rs: find_id3v2", "lofty/src/flac/read.rs: read_from", "lofty/src/ape/read.rs: read_from", "lofty/src/musepack/read.rs: read_from", "lofty/src/mpeg/read.rs: read_from", "lofty/src/ape/tag/read.rs: read_ape_tag_with_header", "lofty/src/ape/tag/write.rs: find_existing_ape_tags"]}
{"id": "C101", "title": "ID3v2 tags saved with a checksum or restrictions can be read again", "statement": "A tag whose flags ask for a checksum or for tag restrictions has, after it was saved to a file, the same frames when the file is read. The other tags of the file are untouched, and the tag can be replaced by saving another.", "quantifier": "every ID3v2.4 tag with frames and a checksum or restrictions, every sequence of saves before, MPEG, AAC, Monkey's Audio, Musepack, WAV and AIFF files", "why_tests_cant": "The tests never write a tag with these flags and read it again; that no frame survives, whatever the tag, is a statement about all tags and all files.", "anchors": ["lofty/src/id3/v2/write/mod.rs: create_tag, create_tag_header", "lofty/src/id3/v2/header.rs: Id3v2TagFlags::as_id3v24_byte, Id3v2Header::parse", "lofty/src/id3/v2/read.rs: parse_id3v2", "lofty/src/id3/v2/frame/header/parse.rs: parse_header"]}
{"id": "C102", "title": "Files can be read after an ID3v2.3 tag was saved to them", "statement": "After an ID3v2.3 tag with at least one written frame was saved to a file, the file can be read: the tag is found again, whatever the flags of the tag.", "quantifier": "every list of frames with proper identifiers, every setting of the tag flags without checksum and restrictions, every padding, every MPEG or AAC file before the save and every reading option, every WAV or AIFF file without an ID3v2 chunk before", "why_tests_cant": "The tests never write an ID3v2.3 tag with the experimental flag; that no file can be read afterwards is a statement about all tags, files and options.", "anchors": ["lofty/src/id3/v2/header.rs: Id3v2TagFlags::as_id3v23_byte, Id3v2Header::parse, read_extended_header", "lofty/src/id3/v2/write/mod.rs: create_tag, create_tag_header", "lofty/src/id3/mod.rs: find_id3v2", "lofty/src/mpeg/read.rs: read_from", "lofty/src/aac/read.rs: read_from", "lofty/src/iff/wav/read.rs: read_from", "lofty/src/iff/aiff/read.rs: read_from"]}
