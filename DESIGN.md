# Design

Subject: the `lofty` audio-metadata crate (with `ogg_pager`) in `/repo`. The
model is written in Lean 4 under `lean/Verif`:

* `Verif/Model/*` – the model, one definition per modelled Rust function, each
  citing the file and lines it follows.
* `Verif/Lemmas/*` – helper lemmas only.
* `Verif/Props/*` – the property theorems, the small specifications they are
  stated against, and an `example` next to each theorem showing a concrete case
  that meets its hypotheses.

## Trusted base

* Lean's kernel and the three standard axioms `propext`, `Classical.choice`,
  `Quot.sound` (per-theorem axioms are what `#print axioms` shows; nothing else
  is used: no own axioms, no `native_decide`/`bv_decide`).
* The reading of the Rust source: the code is not executed here. Each model
  definition cites its source and names its simplifications.
* Conventions used throughout the model:
  * bytes are `UInt8`, buffers and files are `List UInt8`; a reader is the list
    of bytes still to be read (or a file plus a position where seeking matters);
  * `&mut self` methods return the new value; `Result`/`Option` are data and a
    panic (index out of range, arithmetic overflow in debug builds,
    division by zero, `unwrap`) is an explicit outcome where a property is
    about it;
  * machine integers are `Nat` with explicit bounds, or `BitVec`/`UInt8` where
    wrap-around or bit layout matters;
  * text is `List Char` (Unicode scalar values), UTF-8 is `String.toUTF8`-style
    encoding defined in the model;
  * `log::*`, allocation failure, I/O errors of the operating system, `serde`
    support, caching of capacity, and performance are not modelled.

## Per property

| id | what is modelled | how it is proved |
|----|------------------|------------------|
| C01 | `synch`/`unsynch`/`widening_synch` for u8/u16/u32 as bit operations | bitwise extensionality/arithmetic, all values |
| C02 | the buffered reader as a state machine over (remaining bytes, pending flag), driven by a list of read sizes | invariant relating output so far to the specification; induction over reads |
| C03 | `replace_range`, `shift_left`, `shift_right` with arbitrary buffer size on a byte list | loop invariants, refinement to `prefix ++ new ++ suffix` |
| C04 | the four encoders and the terminated decoders | round trip by induction over characters |
| C05 | decimal formatting and `u32` parsing, splitting on `/` and NUL | round trip |
| C06 | `div_round` on naturals | arithmetic |
| C07 | page serialiser and reader | round trip |
| C08 | CRC table and loop | table checked entry by entry in the kernel against the bitwise step; induction over bytes; linearity |
| C09, C10 | the pagination context state machine and the packet reader | refinement to a recursive specification; induction over packets |
| C11 | packet buffer with size table | representation invariant, refinement to list of packets |
| C12–C14 | comment block writer/reader, tag operations | round trip; list lemmas; totality by construction of the model plus bounds |
| C15, C16 | block reader/writer and the rebuild of the metadata region | round trip, structural theorem over block lists, combined with C03 |
| C17, C18 | picture block, type tables | round trip; complete tables |
| C19–C21 | RIFF INFO and AIFF text writers/readers, chunk iterator | round trip by induction over items; fuel-free recursion on remaining input |
| C22 | encoder and parser of the 128-byte block | round trip |
| C23–C28 | header, flags, restrictions, frame list, frame bodies, frame sequence | complete tables, round trip, invariants |
| C29 | tag placement in files of the form lead ++ audio ++ trail | structural theorem over the file layout |
| C30, C31 | item/tag serialiser and parser, map operations | round trip, map laws |
| C32, C33 | generic tag operations, key tables | list invariants by induction over histories; complete tables |
| C34 | parser with its modes, verifier, printer | round trip and invariants |
| C35 | provider tables | complete tables |
| C36–C39 | atom builder/parser, in-place write, offset patching, operations | round trip, structural, map laws |
| C40, C41 | type guesser over (bytes, position), tagged file operations | decision logic, invariants |
| C42, C43 | header decoder, sync searches | complete case analysis, induction |
| C44 | the arithmetic of the property readers with a division-by-zero outcome | arithmetic; witnesses for the failing formats |
| C45 | frame scan step function | progress lemma, witness of a fixed point |
| C46 | variable-length size reader | round trip |
| C47 | scramble table, event sorting | involution, stable sort lemmas |
| C48 | the searcher with arbitrary buffer size | loop invariant |
| C49, C50 | split/merge/From of APE, Vorbis, RIFF INFO, AIFF, ID3v1 (Model/Convert) | list lemmas over the key tables, induction over the items merged |
| C51, C52 | split/merge/From of MP4 `Ilst`, names of atoms (Model/ConvertIlst) | the merged atoms and the split tag described key by key; residues of atoms |
| C53 | header fields of Vorbis, Opus, Speex, Xing/Info/VBRI, Musepack 4 to 7 (Props/StreamHeaders) | a header built from its fields is read back as these fields |
| C54 | `create_items_v3`, upgrade of frame ids, `construct_tdrc_from_v3`, genres (Model/Id3v2Tag, Model/Id3v2Genres) | the written bytes cut into pieces that are each read as one frame; the date put together again up to a permutation |
| C55 | the borrowed forms of generic tags (`riffRef`, `aiffRef`, `id3v1Ref`, `vorbisRef`, `apeRef` in Model/Convert) | the items written, converted back, described key by key |
| C56 | split/merge/From of ID3v2 tags, direct saving (Model/ConvertId3v2); the set of frames as any permutation | every kind of frame described by the key it is made for; the items of one key are a filter of the items of all frames |
| C57 | the same functions, the remainder of a split and merging into it | the kept frames are fixed points of the split; the merged list described by cases (people joined or not) |
| C58 | reading of MP4 files: `moov.rs`, `read/mod.rs` (Model/Mp4Read) | the reader's position described by the bytes still inside its bounds (`At`), one lemma for each step over, into or past an atom; composed with C38/C41/C45 |
| C59 | saving comments to OGG files: `ogg/tag/write.rs`, `ogg/read.rs` (Model/OggWrite) | the file as header packets (`Headed`) and pages (`Paged`); the loop over the pages is a closed form (`run`); composed with C04–C07, C12 and C44 |
| C60 | the tags around the audio of MPEG, AAC, APE, WavPack and Musepack files: the `read.rs` of each (Model/FileTags) | a list of saves (`Save`) against a record of the last tag of each kind (`Tags.after`); the invariant `Layout` (front tag, audio, APE, ID3v1) is kept by every save and read back by every reader |
| C61 | properties of FLAC, WAV, AIFF, Monkey's Audio (Model/Lossless), the floating point operations they use (Model/Float64), 80 bit numbers | header layouts in Spec/Lossless; relative error of each rounding (Lemmas/Float64) and the distance of a quotient from the next integer give exact durations |
| C62 | properties of WavPack files (Model/WavPack), whole WavPack and Monkey's Audio readers (Model/AudioFiles) | block and sub-block layouts in Spec/WavPack, induction over blocks; a measure on the rest of the input for termination; monotonicity of the readers in what follows the audio |
| C63 | properties of MP4 files (Model/Mp4Props) and the whole reader `readFile` | sample descriptions, headers and tables in Spec/Mp4Props; the place of each atom in the forest (`properties_of`), then `file_props_partial`; saving: `mapOffsets` keeps everything `Audio` mentions (`audio_moved`) |
| C64 | whole WAV and AIFF files (Model/IffFiles): `chunk_file.rs`, the readers with all tags and properties | a file is a list of chunks; `WavHas`/`AiffHas` tell its tags; every save keeps that relation (`wav_id3_run`, `wav_info_run`, `aiff_id3_run`, `aiff_text_run`); the reader is a fold over the chunks (`readWav_chunks`, `readAiff_chunks`) |
| C65 | `PictureInformation` (Model/Picture) | images as lists of chunks or segments (Spec/PictureInfo), induction over them; a measure for termination |
| C66 | `OggPictureStorage` (Model/PictureStorage) | an invariant over lists of operations; each operation described by filters |
| C67 | the dispatch of saves: `tag_ext.rs`, `tag/utils.rs`, `tag_type.rs`, the generated `write` modules (Model/Save), on top of the savers of C16, C29, C58–C60, C64 | case analysis over formats and tag types against the documented table of C40 (Spec/FileType) |
| C68 | detection (Model/FileType) after the savers of C16, C37, C59, C60, C64 | the layout of the saved file, from the theorems about saves, meets the signatures of C40; the search for frames does not depend on what is in front or behind |
| C69 | `Probe::read` and the generic tags of opened files (Model/Opened), on top of Model/Save and the readers of all formats | composition: conversion to the tag of the format (C51, C52, C55, C56), save and read of the format (C16, C37, C59, C60, C64), detection (C68), conversion back; sequences of saves by induction |
| C70 | all readers of tags (Model/Opened and below), and the readers of properties that depend on the mode | a preorder on results ("what the one gives, the other gives too"), carried through every reader by induction over its loops |
| C71 | all readers of tags (Model/Opened and below) and the guessing of the type | a predicate on results (no panic, an end unless ..., and what is given is such), carried through every reader; measures for the loops; an invariant of the MP4 reader (it has not lost its end) |
| C72 | Model/Accessor (on the tags of Tag, Id3v1, Id3v2List, Vorbis, Ape, Ilst, Iff) | what is seen as a function of a map of keys; every call changes the map at one key or two; induction over the calls with the invariant that keys are not repeated |
| C73 | Model/Accessor | the items outside a predicate after one call, then induction over the calls |
| C74 | Model/Save, Model/Opened | removing is saving an empty tag (C68); what opening shows after any saves (C69) with that save at the end |
| C75 | Model/Whole: opening a file with tags and properties (all readers of tags and of properties, the generic properties) | a relation between the states of the two runs of the chunk and block loops, kept by every step |
| C76 | Model/Whole | as C75; for WAV and MP4 the result of reading well-formed files is computed for both settings |
| C77 | Model/Whole and all readers below it | a relation between the frame lists of the two runs (same frames up to order, pictures and the inside of chapters), kept by inserting and replacing frames; relations between the results of the file readers, lifted through binds; for MP4 the result of reading is computed |
| C78 | Model/Id3v2File, Id3v1, Ape, Flac, OggWrite, IffFiles, Iff, Mp4Write | induction over the saves with the bytes of the three tags as state; for FLAC, WAV, AIFF and MP4 the file after a save is shown to be a well-formed file of known shape, to which the theorem about one save applies again |
| C79 | Model/Whole with the readers and properties of all formats | the container is opened up as for C74-C78, the theorem about the header of the format is applied, and the conversion is computed; the statement names only fields of the header in the file |
| C80 | `calculate_crc`, `CRC32_TABLE`, `create_tag` (Model/Id3v2Header) | the register is the reversal of the one of C08, one byte of the table being eight of its steps; linearity and injectivity from C08 |
| C81 | `Ord` of `Timestamp`, `TimestampFrame` and `Event`, `Hash` of the frames (Model/Order) | both orders are reduced to the lexicographic order of lists of numbers; the data fed to a hasher is a list of pieces (`Fed`), a derived `Hash` being one piece with all fields |
| C82 | `TagExt::dump_to` of all tags and `dump_tag` (Model/Dump) against `save_to` (Model/Save) | the bytes of the tag are followed through the file writers (splices, chunks, blocks, packets, atoms) and shown to stay in one piece |
| C83 | the registry of custom resolvers, its lock, the option of each thread, `from_ext`, `guess_inner` and `read_inner` with resolvers (Model/Resolvers) | executions are lists of calls of any threads; the order of the hash map is an arbitrary permutation; the functions of the resolvers are parameters |
| C84 | `save_to` of the tags of all formats with the cursor at any position (Model/Position) | at position 0 it is proved to be the model of the other properties (`just_opened`) |
| C85 | `save_to_path`, `remove_from_path`, the type by extension, a file opened for reading only (Model/Paths) | a path is an extension and the content of the file; a writer on a read-only file fails at its first `write` or `truncate`; which writers return before one is modelled |
| C86 | `try_vec!`, `try_with_capacity_stable` (Model/Alloc), the key check of Vorbis comments | the memory of a vector is a list of cells that may be uninitialised; the allocator, the size of the elements and `clone` are parameters; `Vec::try_reserve` and `set_len` as documented by the standard library; the `UnsafeCell` of the options of a thread is not modelled |
| C87 | all writers again (Model/Storage), with their calls of `truncate` and `write_all` one after the other on a file that is left behind if they fail | a full device writes the part that fits and fails; other I/O errors, and errors of `truncate` and of reading, are not modelled; several `write_all` calls in a row without a check between them are one |
| C88 | `BoundTaggedFile` (Model/Bound): `read_from`, `save`, `into_inner` and the operations of `TaggedFileExt`, on the models of saving (C54) and opening (C69) | properties are not read; a failing save ends a history; the handle is the list of bytes |
| C89 | `==` of `Id3v2Tag`, `FrameList`, `Ilst` and `Atom` (Model/Equality) | derived implementations written out field by field; `==` of the frames is that of C26 |
| C90 | pictures in APE items and from image files (Model/Picture) | an exact description of what is read, then the round trip as an equivalence |
| C91 | `get_texts`, `text_values`, `push` (Model/Id3v2List, Model/Ape) | the values of a text described by joining, shown unique; induction over the pushed values |
| C92 | `len`, `contains`, `is_empty`, `clear` of every tag (Model/Count), `set_url` (Model/Links) | case analysis over the kinds of tags; equivalences with `get`; induction over the changes |
| C93 | channel masks (Model/ChannelMask) of opened files (Model/Whole) | the layouts of RFC 7845 and ISO 14496-3 are written out in Spec/Masks; the readers are opened up down to the field |
| C94 | ID3v2.2 tags (Model/Id3v2Frame, Model/Id3v2Tag), opened MPEG files (Model/Opened) | the ids of the two standards are written out in Spec/Id3v22; a frame is its id, three bytes of size and a body |
| C95 | `construct_tdrc_from_v3` and the reading of ID3v2.3 frames (Model/Id3v2Tag) | the layout of the frames and the joined date are written out in Spec/Id3v23Dates; lists up to order |
| C96 | `read_from` of MPEG files, `write_id3v2` and `find_id3v2` (Model/FileTags, Model/TagFiles) | tags are those that saving makes (`Made`), merged by the public `insert` (Spec/Chained); ID3v2.4 without extended header |
| C97 | the WAV reader and `write_riff_info` (Model/IffFiles, Model/Iff) | the lists and chunks of a file are labelled with their items and tags (`Several`); the label of a list is shown to be determined by its bytes |
| C98 | `Tag::ratings` (Model/Ratings) over the conversions, writers and readers of C69 | corollaries of the end-to-end theorems: the texts of the key are kept, and the text of a rating is read as the rating; for INFO lists the text is a number, which is never read as one |
| C99 | pictures over the conversions, writers and readers of C69 | corollaries of the end-to-end theorems; for the tags without pictures a case analysis over every format of `openFile` and `saveTo`, for all bytes |
| C100 | the readers of Vorbis comments, OGG, WAV and AIFF files with the allocation limit (Model/Limits), and of FLAC, Monkey's Audio, Musepack and MPEG files with the limit for ID3v2 tags found by `find_id3v2` (Model/LimitsFront), and of APE tags (Model/LimitsApe); the padding of ID3v2 tags that are saved (Model/LimitsPadding) | the readers without the limit are the specification; exact conditions for files that were saved. The limit for `fmt `/`COMM` chunks, INFO and AIFF texts and encrypted frames is left out |
| C101 | `create_tag`, `create_tag_header` with an extended header, and the readers of MPEG, AAC, Monkey's Audio, Musepack, WAV and AIFF files (Model/Id3v2Header, Model/FileTags, Model/IffFiles) | round trip, refuted for all tags with these flags (bytes of the tag: both versions; files: ID3v2.4 without unsynchronisation), WAV and AIFF files without an ID3v2 chunk before |
| C102 | `as_id3v23_byte`, `create_tag`, `Id3v2Header::parse`, `create_items_v3` and the readers of MPEG, AAC, WAV and AIFF files (Model/Id3v2Header, Model/Id3v2Tag, Model/FileTags, Model/IffFiles) | readability after a save, refuted for all ID3v2.3 tags with the experimental flag |

Operating-system behaviour behind `File` (partial writes, crashes in the middle
of a write) is not expressible in this model and not claimed; threads appear
only in C83, as interleavings of calls on the resolver registry. Floating point is modelled where
audio properties use it (Model/Float64), for the range of values that occurs there.

## What is modelled and what is not

| area | modelled (lofty/src unless noted) | not modelled |
|------|-----------------------------------|--------------|
| bytes, files | `util/io.rs` (reads, writes, truncation, backward search), `util/math.rs`, `util/text.rs` | where `util/alloc.rs` limits apply (other than in MP4, Vorbis comments and ID3v2 chunks; the functions themselves are in Model/Alloc), short reads of the operating system |
| OGG | `ogg_pager` pages, CRC, packets, pagination; `ogg/tag` reader, writer and operations; `ogg/mod.rs` last page; the property readers; saving (`ogg/tag/write.rs`, copying pages); `picture_storage.rs` | – |
| FLAC | blocks, reader, writer, in-place replacement, properties | – |
| pictures | `picture/mod.rs` picture blocks, types, MIME types, `PictureInformation` from PNG/JPEG | – |
| RIFF, AIFF | chunk reader, INFO list, text chunks, their writers, replacement in files, ID3v2 chunks (`chunk_file.rs`), the whole readers, properties | – |
| ID3v1 | all | |
| ID3v2 | synchsafe numbers, unsynchronisation, header, flags, restrictions, frame headers, contents of every frame kind, frame list, frame sequence with chapters, placement in files, number pairs, conversion to and from the generic tag | compression (a parameter); the checksum is never looked at when reading |
| APE | keys, items, tag, placement, operations, conversion | |
| MP4 | atoms, `ilst` reader/writer/operations, saving (`write.rs`), reading (`moov.rs`, `read/mod.rs`, with the allocation limit), properties | – |
| generic tag | `tag/mod.rs`, `tag/item.rs` tables, ratings, timestamps, conversion to and from APE, Vorbis, RIFF INFO, AIFF, ID3v1, MP4, ID3v2 | the companion tag (only whether it is there) |
| file types | `file/file_type.rs`, `probe.rs`, `file/tagged_file.rs`, `tag/utils.rs`, `tag/tag_ext.rs`, the generated writers of `lofty_attr`; `resolve.rs` (Model/Resolvers) | tags of custom types |
| MPEG, AAC, Musepack | headers, searches, durations and bit rates; the tags around the frames | floating point bit rates of Musepack SV4 to SV6 |
| WavPack, Monkey's Audio | the tags around the audio, the size of the audio, properties | – |

## Disagreements between code and expectation

Each entry has a theorem with a concrete witness; the theorem of the property
is then `_partial` or excludes exactly these inputs.

* Generic tag: taking items reorders the others though documented otherwise
  (`Item.take_reorders`); dates on AIFF tags vanish silently
  (`Item.aiff_date_dropped`); two pairs of keys cannot be told apart
  (`Item.writer_becomes_lyricist`, `Item.track_is_total`).
* Tagged files: `tag_mut` with `re_map` breaks "one tag per type"
  (`File.remap_duplicates`).
* Ratings: `Rating.bar_lost`, `empty_email_lost`, `custom_player_differs`.
* Timestamps: no range check in strict mode
  (`Timestamp.strict_accepts_month_13`), `blank_is_error`.
* Type detection: `FileType.mpc_as_mp4`, `FileType.wave_not_listed`,
  `Probe.footer_not_skipped`, `Probe.late_options`.
* Backward search: `Rfind` – the unsuccessful search leaves the reader moved.
* OGG: `paginate_granules_wrong`; Vorbis comments `remove_reorders`,
  `coverart_panics`.
* ID3v1: `empty_tag_appended`, `yearless_tag_refused`.
* ID3v2 header: `v23_experimental_wrong`; in general (`v23_experimental_lost`), no
  ID3v2.3 tag saved with the experimental flag that begins with a frame is found
  again, and the search for the audio goes on inside of the tag. Contents: `url_nul_cut`,
  `userUrl_utf16_wrong`, `comment_utf16_nul_cut`, `etco_reserved_lost`,
  `rva_long_peak_wrong`, `rva_peak_overflow`, `object_mime_wrong`,
  `syncText_v23_wrong`. List: `insert_reorders`, `remove_changes_get`,
  `insert_date_keeps_old`. Frames: `nul_url_breaks_next`, `wfed_breaks_next`,
  `empty_frame_lost`, `data_length_lost`, `unsync_content_changed`,
  `encrypted_wrong`, `etco_not_written`, `bad_frame_fails_tag`,
  `chapter_padding_lost`. Saving as ID3v2.3: `early_year_lost`,
  `date_parts_lost`, `date_reorders`, `last_person_lost`,
  `musicians_become_people`, `genre_parenthesis`.
* ID3v2 and APE in files: `marker_in_audio_loses_data`,
  `small_window_duplicates`, `extended_header_loses_audio`,
  `headerless_tag_loses_audio`, `leading_tag_kept`, `write_panics`,
  `unread_tag_duplicated`, `read_only_items_dropped`.
* APE: `tag_read_only_lost`, `trailing_nul_lost`.
* RIFF: `oversized_list_panics`.
* MP4 files: with two `ilst` in a `meta` the last is replaced and the first is
  read (`Mp4Read.saved_not_read`); removing a tag that comes first in `meta`
  leaves a file that is misread or not readable (`removed_unreadable`,
  `removed_unreadable_end`); the user data of a track is taken for the tag of
  the file, but only if properties are read (`track_tag_read`); a `udta` ending
  in four zero bytes hides the tracks behind it (`terminator_hides_tracks`); a
  tag over the allocation limit is saved and then unreadable
  (`limit_unreadable`).
* OGG files: a stray byte between pages loses all audio behind it when comments
  are saved (`OggWrite.damage_cuts`), as does an audio packet beginning on the
  page on which the comments end (`shared_page_cuts`); the pages of other streams
  get page numbers of the first (`other_stream_renumbered`); the vendor string of
  a tag is never saved (`vendor_ignored`).
* Tags around the audio: Lyrics3v2 tags are not recognised and hide an APE tag
  (`FileTags.lyrics_hide_ape`); the text of an APE tag can be taken for an ID3v1
  tag (`ape_taken_for_id3v1`); if tags are not read, an APE tag changes the
  duration of an MPEG file or makes it unreadable (`unread_tags_change_duration`);
  an ID3v2 tag changes the duration of an AAC file, and if tags are not read makes
  it unreadable (`id3v2_changes_aac_duration`); a truncated tag makes the WavPack
  and Monkey's Audio readers panic (`wavpack_read_panics`, `mac_read_panics`); a
  Monkey's Audio file beginning with an APE tag is never read
  (`mac_leading_ape_fails`).
* Properties: a WAV file of 258 channels is reported with 2
  (`Lossless.wav_channels_cut`); sample rates of AIFF files that are not normalised
  or outside of the range of `f64` are misread (`aiff_unnormalised`, `aiff_wraps`);
  the duration of a Monkey's Audio file whose final frame has one block (or none) is
  that of the final frame (`mac_single_block`, `mac_empty_frame`), and its overall bit
  rate is computed from a size that is 24 bytes short (`FileTags.mac_overall_short`).
* WavPack: a multichannel file at a standard rate is reported with no channels
  (`WavPack.multichannel_not_counted`, `four_channels`); the channel sub-block is not
  counted fully, so that what follows is read from the wrong place (`channels_drift`);
  properties are looked for in front of an ID3v2 tag (`FileTags.wavpack_behind_id3v2`).
* MP4 properties: object types from 40 are misread (`Mp4Props.type_garbled`), as are
  channel configurations behind types from 32 (`channels_garbled`), explicit sampling
  frequencies (`explicit_garbled`), channel configuration 7 (`seven_one`) and the
  reserved frequencies (`reserved_rate`); 256 channels of Audio Lossless Coding panic
  (`als_channels`), as do short `dfLa` atoms (`dfla_short`) and long durations
  (`duration_panics`); only Apple Lossless descriptions of exactly 80 bytes are
  recognised (`alac_unknown`); a second sample entry is read from the wrong place
  (`second_entry`); `minf` before the handler hides the track (`minf_first`).
* ID3v2 in WAV and AIFF: a tag at the end of the file that grows gets a wrong file
  size (`new - old` is taken off instead of added), the next INFO list then lands in
  the middle of the file and both tags are lost (`IffFiles.grown_size`); a tag that
  shrinks in the middle of a WAV file makes the filler chunk swallow the header of
  the next chunk, such as the audio (`junk_swallows_data`); only the first of several
  ID3v2 chunks is replaced, but all are read (`second_tag_stays`).
* Pictures: the depth of greyscale PNG images with alpha is doubled
  (`Picture.png_grey_alpha`); frames in the first segment of a JPEG image or behind
  fill bytes are not found (`jpeg_first_frame`, `jpeg_fill_bytes`), and damaged ones
  panic (`jpeg_length_panics`, `jpeg_depth_panics`); a failed insertion of an icon
  loses the old icon (`failed_insert_loses_icon`), and `set_picture` can duplicate
  icons (`set_duplicates_icon`).
* Saves: empty tags pass the check of supported types, so an empty APE tag saved to
  a FLAC file panics (`Save.empty_panics`), to an Opus file it erases the comments
  (`empty_erases_comments`), to an MP4 file the `ilst` (`empty_erases_ilst`); empty
  `VorbisComments` saved to an MP3 file panic (`empty_comments_panic`), and so does
  `FlacFile::save_to` with any other file (`flac_to_other_panics`); files of a
  format with a read-only tag are saved halfway (`saved_halfway`); `remove_others`
  is ignored (`others_stay`, `others_stay_file`); a `FlacFile` without pictures
  keeps those of the file (`flac_keeps_pictures`).
* Detection: the search for frames behind an ID3v2 tag begins at the footer, so an
  MP3 file with 1018 bytes of junk is not recognised any more after a tag with a
  footer has been saved to it (`Save.footer_hides`).
* Opening: crafted files make it panic (`Safe.opening_panics`): WavPack and Monkey's Audio
  files with the footer of an APE tag that claims too much, FLAC (and Ogg) files with a
  short `COVERART`, MP4 files whose `moov` has a 64-bit length and is followed by an atom
  without length, and MP4 files with a `meta` that is cut off.
* MP4 files with the sound in an atom with a 64-bit length in front of `moov` cannot be
  read: eight bytes too many are skipped (`Mp4Read.wide_sound_hides_tag`).
* Accessors: the date set in an ID3v2 tag has no effect on the date got: it is stored as a
  text frame, and only time frames are looked at (`Accessor.id3v2_date_ignored`,
  `id3v2_date_lost`).  Genres that are numbers show as names, NUL in texts as slashes
  (`id3v2_texts_change`).
* Accessors: numbers and totals share one value in ID3v2, APE and MP4 tags: removing the
  number removes the total, and a missing one of the two is 0
  (`Accessor.pairs_share_removal`, `pairs_share_zero`); numbers in MP4 tags are cut to 16
  bits (`mp4_number_cut`), in ID3v1 tags to 8 (`id3v1_cuts`).
* Accessors: with repeated keys, RIFF INFO lists show the second artist after the artist
  has been removed or set (`Accessor.riff_removed_artist_shown`), Vorbis comments another
  artist after the track has been set (`vorbis_track_changes_artist`), and AIFF text chunks
  with `COMT` a comment after it has been removed (`aiff_removed_comment_shown`).
* Removing (C74): an ID3v1 tag that is removed from a file without one is added, empty, and shown as a tag
  (`id3v1_removal_adds`); after the comments of an OGG file are removed a tag with the encoder is still shown (`encoder_stays`).
* Leaving out properties (C75): user data of an MP4 track is taken for the tag of the file, but only if the properties are
  read as well (`mp4_track_tag`). MPEG files whose properties were not read show a stereo channel mask (`not_read`).
* Leaving out tags (C76): OGG files still show a tag with an empty encoder, FLAC files with pictures a tag with them
  (`flac_pictures_shown`); in Monkey's Audio files the bit rate changes with an APE tag (`mac_rate`); MPEG files with an APE tag
  longer than the audio cannot be read without tags (`mpeg_long_ape`), since the position behind the tag is taken to be that
  behind its header; a RIFF INFO list that ends early makes the reader lose its position, so the properties are found only
  without tags (`wav_lost`); user data of MP4 files that ends in four zero bytes hides the tracks only if it is read
  (`mp4_terminator`).
* Leaving out pictures (C77): the order of the items of an ID3v2.3 tag changes (`order_differs`), since removing frames
  swaps others; with two date frames of different kinds even the date changes (`date_differs`); a FLAC file with pictures
  and no comments has no tag (`flac_tag_gone`); a `covr` atom with a malformed inner atom is skipped to another place than
  it is read to, so that the rest of the tag is read differently (`covr_swallows`). Pictures of APE tags are never shown by
  the generic tag, whatever the option.
* Saving again (C78): saving an empty ID3v1 tag adds an empty tag, saving it again removes it (`empty_id3v1_toggles`); the
  second save of the same tag to a FLAC file puts the comments behind the padding of the first (`second_save_differs`); to a
  WAV file it fails or changes the file (`wav_second_save_differs`); to an MP4 file it overwrites padding that the first save
  left alone (`mp4_second_save_differs`).
* Shown properties (C79): the channels and the sample size of AIFF files are cut to one byte when they are converted: a file
  of 258 channels shows 2 (`aiff_channels_cut`).
* Checksum of ID3v2 tags (C80): it leaves out the padding (`padding_not_checked`) and, with restrictions, the first byte of the
  frames (`first_byte_not_checked`).
* Order of frames (C81): timestamp frames are ordered by their timestamps alone but compared for equality by everything
  (`timestamp_frames_equal_in_order_only`), against the contract of `Ord`. A timestamp with a gap prints like one without its
  finer components (`gap_not_printed`).
* Dumping (C82): the vendor of Vorbis comments is dumped but never saved, since the vendor of the file is kept
  (`vendor_not_saved`); the footer of an ID3v2 tag is dumped but left out in WAV and AIFF files (`footer_not_saved`); an empty
  ID3v1 tag is dumped as 128 bytes, and saving it alternately appends and removes them (`empty_id3v1_dump`).
* Custom resolvers (C83): registering a name twice, or asking for a custom type that is not registered, panics while the lock is held
  and poisons it. `FileType::from_ext` then returns `None` for every extension (`lock().ok()?`), `mp3` included, for the rest of the
  program (`twice_registered`, `poisoned_forever`). An extension with capital letters is never found (`capital_extension`); the same
  type may be registered under two names, against the documentation (`same_type_twice`).
* Cursor (C84): `TagExt::save_to` and `TagType::remove_from` do not rewind the file. `write_id3v2` reads from the cursor to the end,
  then rewinds, truncates to zero and writes, so with the cursor at the second frame of an MPEG file the first frame is lost
  (`frame_lost`); the same with chained Ogg streams (`stream_lost`). With the cursor at the end every save is refused
  (`at_end_refused`). `write_riff_info` takes the size of the file from the cursor but counts places from the start: with the cursor at a
  WAV file inside of a WAV file the list is put into the samples of the outer one (`info_in_sound`). `TaggedFile::save_to` rewinds and is not affected.
* Paths (C85): `TagType::remove_from_path` uses `Probe::open`, i.e. `File::open`, and then writes to that handle; a file opened for
  reading only cannot be written, so the call never removes anything (`remove_path_fails`), and fails even without a tag for all formats
  but FLAC, MP4, WAV and AIFF (`remove_path_never`). `examples/tag_stripper.rs` relies on it.
* Allocation limit (C86): documented as a number of bytes, but compared with the number of elements (`limit_not_bytes`).
* Failing saves (C87): all writers but those of FLAC comments and ID3v1 tags truncate the file before they write it anew, so a full device costs the end of the file, which is audio for tags in front (`audio_lost`). If one of several tags is refused the ones before it have been saved (`half_saved`). An ID3v2 tag that grows at the end of a WAV or AIFF file is written before the size is computed, which may panic (`grown_damages`).
* Bound files (C88): the documentation says that the tags reflect those on disk after a save, "such as tag removals". A tag that is removed, or all tags when they are cleared, stays in the file (`removal_unsaved`, `clear_unsaved`). A read-only tag, or one of which nothing can be stored, stays in memory (`read_only_unsaved`, `unstorable_kept`); an empty ID3v1 tag is dropped from memory and added to the file (`empty_id3v1_saved`).
* Equality (C89): two ID3v2 tags with the same frame ids are equal whatever their texts, comments or chapters say (`titles_ignored`, `contents_ignored`), since the equality that finds the frame to be replaced is also the one that compares tags. What `split_tag` leaves of an MP4 tag may be unequal to a tag of the same contents, since a list of one value differs from a single value (`remainder_unequal`).
* APE pictures (C90): the description is written as UTF-8 and read as Latin-1, so `Fläche` comes back as `FlÃ¤che` (`ape_garbled`); a NUL in it makes the picture unreadable (`ape_nul`).
* Contents of tags (C92): an AIFF tag with `Some(vec![])` annotations has length 0 but is not empty (`aiff_no_items`); Vorbis comments contain the empty key but `get("")` is `None` (`Vorbis.contains_unfound`); `RiffInfoList::contains` ignores case, `get` does not (`Iff.contains_unfound`); an ID3v1 tag with genre 255 contains a genre, its generic form does not (`Id3v1.contains_unconverted`).
* Channel masks (C93): the documentation of `from_mp4_channels` refers to a table in which configuration 4 is front center, left, right and back center; the code has front left, right, back left and right (`aac_four`). Configuration 7 has eight speakers, but AAC files with it show seven channels (`aac_seven`). `MpegProperties::default()` is stereo with zero channels (`mpeg_unread`).
* ID3v2.2 (C94): `V2_KEYS` renames `TOA` (original artist) to `TOAL` (original album) instead of `TOPE`, and `TXT` (lyricist) to `TOLY` (original lyricist) instead of `TEXT` (`artist_wrong`); a file shows them under the wrong keys (`lyricist_moved`), and an original artist is lost if the tag also names the original album (`artist_lost`). `construct_tdrc_from_v3` runs for ID3v2.3 only, so the day of a recording is neither shown nor written again (`date_cut`, `date_cut_file`).
* Dates of ID3v2.3 (C95): `construct_tdrc_from_v3` first removes the `TDRC` frame and returns if it holds a month, so a tag of ID3v2.3 with a whole date in one frame loses it (`full_date_lost`, `full_date_lost_file`), although the comment says that such a frame is not concerned. The numbers of `TDAT` and `TIME` are not checked; a day 99 makes every later save fail (`wrong_day_taken`).
* Several ID3v2 tags (C96): reading an MPEG file inserts the frames of the second and later ID3v2 tags into the first, but a save replaces the first only. So a text that is saved is hidden by the old text of the second tag (`saved_text_hidden`, `new_title_hidden`), and removing the ID3v2 tag leaves one (`removal_leaves`, `second_tag_stays`). The footer of a tag behind the first is not skipped, which hides the tags after it (`footer_hides`).
* Several INFO lists or ID3v2 chunks (C97): all of them are read, the first is replaced or removed by a save, so the items and frames of the others come back (`old_items_stay`, `second_list_stays`, `second_chunk_stays`). A comment in tests/taglib/test_wav.rs says that the latest tag has precedence, which is so of ID3v2 tags; of INFO lists it is the first (`first_list_read`).
* Ratings (C98): no rating survives a RIFF INFO list (`riff_ratings_lost`, `wav_rating_shown`); `VorbisComments` made from a tag forgets the number of plays and ratings without address (`comments_ratings`).
* Pictures (C99): generic tags saved as APE lose all pictures without an error (`pictures_not_saved`, `ape_items_no_cover`), and opening a file with a cover in its APE tag and saving it unchanged deletes the cover (`ape_cover_lost`), although the documentation of `ApeTag` says that only pictures of undefined type are discarded when converting. In MP4 files the types of pictures are lost (`mp4_pictures_partial`).
* Allocation limit when reading (C100): documented as a limit "for any single tag item", but a WAV or AIFF file is refused if its whole ID3v2 tag is longer (`whole_tag_counted`), and so is a FLAC, Monkey's Audio or Musepack file with such a tag in front (`front_refused`, `flac_front`), although comments can be saved to it; comments over the limit, for example a cover of 13 MB in base64, are saved to OGG files without an error, and the file cannot be opened afterwards (`saved_then_refused`). Saving smaller comments makes it readable again. An APE tag with an item over the limit is saved without an error as well, and then the file can neither be opened nor saved to, and the tag cannot be removed, because saving reads the tag in the file first (`stuck`, `saved_stuck`).
* Extended headers (C101, see also C23): `create_tag_header` writes an extended header for a checksum or restrictions, but `as_id3v24_byte` does not set the bit 0x40 that announces it. The extended header begins with a zero byte and is read as padding, so **every frame of such a tag is lost** (`mpeg_frames_lost` and so on). As the flags are kept when a tag is read, a file of another program with a checksum loses its metadata when its tag is saved unchanged (`unchanged_save_loses`).
* Experimental ID3v2.3 tags (C102, see also C23): `as_id3v23_byte` writes the experimental flag into bit 0x40 (extended header), the parser expects it in bit 0x20. The first frame is taken for an extended header of an impossible size, so **every MPEG, AAC, WAV or AIFF file in which such a tag was saved is refused** (`mpeg_experimental_unreadable` and so on; WAV and AIFF files that had no ID3v2 chunk), even if it was read from the file before and saved unchanged (`unchanged_save_unreadable`).
* Parsing modes: in MPEG files, a tag behind junk is looked for in the default and the
  relaxed mode but not in strict mode, so that a file that strict mode reads may show
  another tag or fail in the others (`Modes.junk_modes`).
* Opened files: empty texts that were saved are gone when a FLAC, OGG or WAV file is
  opened, not when an AIFF file is (`Opened.empty_texts_lost`); a tag without encoder
  that is saved to an OGG file has one when the file is opened (`Opened.encoder_appears`);
  a tag with a `Work` or `FlagPodcast` item cannot be saved as ID3v2 at all, though both
  keys have a frame there, and a release date that is no date is lost (`Opened.unsavable`).
* MP4: `Ilst.utf16_garbled`, `empty_text_lost`, `other_flag_number`,
  `short_playlist_lost`, `signed_byte_unsigned`, `type_set_swallows`,
  `extended_panics`, `remove_reorders`, `large_number_lost`,
  `removeTotal_keeps`; saving: `Mp4Write.offsets_stale`,
  `offsets_stale_meta`, `hdlr_replaced`, `hdlr_removed`, `co64_error`,
  `co64_stale`, `small_padding_panics`, `tfhd_wrong`.
* Conversion: splitting and merging reorders Vorbis comments and drops
  ratings without email (`Convert.vorbis_split_merge_losses`,
  `vorbis_reorders`, `vorbis_rating_lost`); APE: pictures lost, movement total
  read as movement number, non-numeric track numbers lost, direct saving writes
  duplicate items (`ape_losses`, `ape_split_merge_losses`,
  `ape_saved_directly`, `ape_direct_zero`); RIFF INFO has no remainder
  (`riff_unknown_lost`) and does not read back the ratings it writes
  (`riff_rating_changed`); Vorbis comments saved directly keep ratings in the
  generic form (`vorbis_direct_differs`); AIFF
  and ID3v1 keep other than the first item (`aiff_reorders`,
  `id3v1_artist_differs`, `id3v1_genre_case`, `aiff_comments_lost`); MP4:
  texts in cover atoms and pictures elsewhere are lost (`misplaced_lost`), and
  pairs of two zeros (`zero_pair_lost`), locators (`locator_lost`), the number 4
  for explicit becomes 1 (`old_rating_changed`), an integer tempo is not
  converted in either direction (`tempo_not_converted`), a text under `trkn` is
  taken for the total (`track_text_is_total`), and several values of an atom
  become several atoms (`atom_spread`).
* Conversion to ID3v2: a label hides all publishers (`publisher_lost`);
  MusicBrainz ids of releases, release groups and tracks, movement numbers and
  the colour have frames but are dropped (`ids_lost`); the second of two
  comments without distinction loses its description (`description_lost`);
  direct saving drops links (`links_lost`); a later text that is no number
  erases the number and a total alone makes the number 0 (`number_erased`);
  the encoder becomes its settings and only the first ISRC stays
  (`encoder_renamed`); new people are lost if the frame `TIPL` is a plain text
  (`people_lost`), an empty genre frame disappears (`empty_genre_lost`), and
  saving with a companion may write two lists of people (`people_twice`).
* MPEG: `layer1_length_wrong`, `border_header_missed`, `hidden_frame`.
* AAC: `home_is_copyright`, `zero_length_hangs`, `cut_header_refused`,
  `tag_taken_for_frame`, `aac_seven_is_eight`.
* Musepack: `many_samples_panic`, `long_packet_panic`, `sv7_gapless_panic`.
* Opus, Speex: `short_opus_panics`, `opus_channels_panic`,
  `short_speex_panics`.
