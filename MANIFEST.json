{
 "claims": [
  {
   "property": "C01",
   "status": "proved",
   "theorems": [
    "FreeCoAP.Mem.C01_buffers_exclusive"
   ],
   "note": "num*len must not wrap (see C04)"
  },
  {
   "property": "C02",
   "status": "proved",
   "theorems": [
    "FreeCoAP.Mem.C02_alloc_fails_iff",
    "FreeCoAP.Mem.C02_first_fit_refinement"
   ],
   "note": ""
  },
  {
   "property": "C03",
   "status": "proved",
   "theorems": [
    "FreeCoAP.Mem.C03_free_other_noop",
    "FreeCoAP.Mem.C03_free_exact"
   ],
   "note": ""
  },
  {
   "property": "C04",
   "status": "partial",
   "theorems": [
    "FreeCoAP.Mem.C04_create_sound_partial",
    "FreeCoAP.Mem.C04_violated",
    "FreeCoAP.Mem.C04_all_create_failure",
    "FreeCoAP.Mem.C04_create_einval"
   ],
   "note": "The code violates the full statement: num*len wraps (C04_violated). Proved when the product does not wrap."
  },
  {
   "property": "C05",
   "status": "partial",
   "theorems": [
    "FreeCoAP.Msg.C05_roundtrip_partial",
    "FreeCoAP.Msg.C05_roundtrip_unsigned_char",
    "FreeCoAP.Msg.C05_violated"
   ],
   "note": "The code violates the full statement (C05_violated): on platforms with signed char, option deltas and lengths of 141 to 268 are misread; codes of class 1, 3, 6, 7 can be set and formatted but not parsed. Proved for all other messages; for unsigned char without a condition on the options."
  },
  {
   "property": "C06",
   "status": "partial",
   "theorems": [
    "FreeCoAP.Msg.C06_format_parse_partial",
    "FreeCoAP.Msg.C06_injective_partial",
    "FreeCoAP.Msg.C06_signed_partial",
    "FreeCoAP.Msg.C06_violated"
   ],
   "note": "Violated with signed char (C06_violated). Proved for unsigned char, and for signed char without a misread extension byte (Reads in Msg/Spec2.lean); datagrams of at most 65535 bytes."
  },
  {
   "property": "C07",
   "status": "partial",
   "theorems": [
    "FreeCoAP.Msg.C07_parse_iff_grammar_partial",
    "FreeCoAP.Msg.C07_complete_signed_partial",
    "FreeCoAP.Msg.C07_signed_exact",
    "FreeCoAP.Msg.C07_signed_grammar",
    "FreeCoAP.Msg.C07_signed_misread",
    "FreeCoAP.Msg.C07_signed_partial",
    "FreeCoAP.Msg.C07_signed_unsorted",
    "FreeCoAP.Msg.C07_violated"
   ],
   "note": "For unsigned char the equivalence with the grammar is proved for all datagrams of at most 65535 bytes. Violated with signed char; what is accepted there is characterised exactly (C07_signed_exact, for datagrams of any length): a datagram without an extension byte of 0x80 or more is read as the grammar says, every other accepted datagram is read as a message that is not its own, possibly with options out of order (C07_signed_unsorted)."
  },
  {
   "property": "C08",
   "status": "partial",
   "theorems": [
    "FreeCoAP.Msg.C08_reads_inside_partial",
    "FreeCoAP.Msg.C08_overread_iff_partial",
    "FreeCoAP.Msg.C08_byte_after_irrelevant_partial",
    "FreeCoAP.Msg.C08_violated"
   ],
   "note": "Violated: one byte past the datagram is read exactly when an accepted message has no payload (C08_overread_iff_partial). No other read is outside."
  },
  {
   "property": "C09",
   "status": "partial",
   "theorems": [
    "FreeCoAP.Msg.C09_writes_inside_partial",
    "FreeCoAP.Msg.C09_spare_partial",
    "FreeCoAP.Msg.C09_violated",
    "FreeCoAP.Msg.C09_violated_payload"
   ],
   "note": "Violated: the size test of an option uses its number for its length. Proved for messages without an option of number < 13 and length 13 to 268, and for every message with a spare byte per option."
  },
  {
   "property": "C10",
   "status": "partial",
   "theorems": [
    "FreeCoAP.Msg.C10_fits_iff_partial",
    "FreeCoAP.Msg.C10_refuses_partial",
    "FreeCoAP.Msg.C10_violated"
   ],
   "note": "Violated for the same reason as C09."
  },
  {
   "property": "C11",
   "status": "proved",
   "theorems": [
    "FreeCoAP.Msg.C11_options_sorted_stable",
    "FreeCoAP.Msg.C11_other_fields"
   ],
   "note": ""
  },
  {
   "property": "C12",
   "status": "proved",
   "theorems": [
    "FreeCoAP.Msg.C12_malformed_refused",
    "FreeCoAP.Msg.C12_others_not_refused"
   ],
   "note": ""
  },
  {
   "property": "C14",
   "status": "proved",
   "theorems": [
    "FreeCoAP.Msg.C14_copy_equal",
    "FreeCoAP.Msg.C14_applies"
   ],
   "note": "For sources with sorted options and fields within the setters' limits, which is what the parser returns and the setters produce."
  },
  {
   "property": "C15",
   "status": "partial",
   "theorems": [
    "FreeCoAP.Msg.C15_path_string_partial",
    "FreeCoAP.Msg.C15_violated"
   ],
   "note": "The value returned for a buffer of 0 bytes, and of one byte when there is no segment, is 0 and not the length (C15_violated). Proved in every other case."
  },
  {
   "property": "C16",
   "status": "partial",
   "theorems": [
    "FreeCoAP.Msg.C16_block_roundtrip_partial",
    "FreeCoAP.Msg.C16_large_refused",
    "FreeCoAP.Msg.C16_violated"
   ],
   "note": "Violated for the block numbers 16, 4096 and 2^20, which are encoded as 0. Proved for all others."
  },
  {
   "property": "C17",
   "status": "proved",
   "theorems": [
    "FreeCoAP.Msg.C17_critical",
    "FreeCoAP.Msg.C17_unsafe"
   ],
   "note": ""
  },
  {
   "property": "C18",
   "status": "proved",
   "theorems": [
    "FreeCoAP.Msg.C18_setters"
   ],
   "note": ""
  },
  {
   "property": "C51",
   "status": "partial",
   "theorems": [
    "FreeCoAP.Msg.C51_block_decode_partial",
    "FreeCoAP.Msg.C51_violated"
   ],
   "note": "Violated for the empty value: bytes outside the value are read. Proved for values of 1 to 3 bytes."
  },
  {
   "property": "C13",
   "status": "partial",
   "theorems": [
    "FreeCoAP.Msg.Heap.C13_violated",
    "FreeCoAP.Msg.Heap.C13_exact_but_lost_partial",
    "FreeCoAP.Msg.Heap.C13_no_leak_partial",
    "FreeCoAP.Msg.Heap.C13_destroy_all_partial",
    "FreeCoAP.Msg.Heap.C13_parse_same_result",
    "FreeCoAP.Msg.Heap.C13_edit_same_result",
    "FreeCoAP.Msg.Heap.C13_failed_parse",
    "FreeCoAP.Msg.Heap.C13_failed_edit",
    "FreeCoAP.Msg.Heap.C13_parse_enough_memory"
   ],
   "note": "Violated as stated: when the value of an option cannot be allocated, the option structure is freed into the wrong pool and leaks. Proved: this is the only leak, the full statement holds for every history without a refused medium allocation, and the results agree with the model without buffers."
  },
  {
   "property": "C19",
   "status": "proved",
   "theorems": [
    "FreeCoAP.Server.C19_response"
   ],
   "note": ""
  },
  {
   "property": "C20",
   "status": "partial",
   "theorems": [
    "FreeCoAP.Server.C20_no_double_execution_partial",
    "FreeCoAP.Server.C20_repetitions_partial",
    "FreeCoAP.Server.C20_violated"
   ],
   "note": "Violated as stated: a malformed datagram between the two makes the server forget the sender (C20_violated). Proved as long as the server remembers the sender."
  },
  {
   "property": "C21",
   "status": "partial",
   "theorems": [
    "FreeCoAP.Server.C21_exactly_once_partial",
    "FreeCoAP.Server.C21_no_transfer",
    "FreeCoAP.Server.C21_violated"
   ],
   "note": "Violated for the message id 0 (taken for a duplicate). Proved for the other ids."
  },
  {
   "property": "C22",
   "status": "partial",
   "theorems": [
    "FreeCoAP.Server.C22_not_executed",
    "FreeCoAP.Server.C22_bad_option_partial",
    "FreeCoAP.Server.C22_violated"
   ],
   "note": "That the handler is not called is proved without condition; the 4.02 answer is violated for the message id 0 and proved for the others."
  },
  {
   "property": "C23",
   "status": "proved",
   "theorems": [
    "FreeCoAP.Server.C23_one_reset",
    "FreeCoAP.Server.C23_silent",
    "FreeCoAP.Server.C23_no_bounce"
   ],
   "note": ""
  },
  {
   "property": "C24",
   "status": "proved",
   "theorems": [
    "FreeCoAP.Server.C24_one_per_sender",
    "FreeCoAP.Server.C24_least_recently_used"
   ],
   "note": "For the choice of the forgotten sender the clock is taken to be after 1970 (what time() returns), and a datagram announced by select to be there."
  },
  {
   "property": "C25",
   "status": "proved",
   "theorems": [
    "FreeCoAP.Server.C25_datagram",
    "FreeCoAP.Server.C25_timer"
   ],
   "note": "Apart from the eviction of one sender when all places are taken, which is C24."
  },
  {
   "property": "C26",
   "status": "partial",
   "theorems": [
    "FreeCoAP.Server.C26_bounded_partial",
    "FreeCoAP.Server.C26_discarded_partial",
    "FreeCoAP.Server.C26_acknowledged_partial",
    "FreeCoAP.Server.C26_violated"
   ],
   "note": "Violated as stated: messages with the id of the request but a path whose response is not separate make the server resend the stored response without limit. Proved when the sender only repeats the request."
  },
  {
   "property": "C27",
   "status": "partial",
   "theorems": [
    "FreeCoAP.Server.C27_ids_partial",
    "FreeCoAP.Server.C27_violated"
   ],
   "note": "The range is proved; consecutive ids are equal exactly when the random number drawn after 65535 is 65535."
  },
  {
   "property": "C52",
   "status": "partial",
   "theorems": [
    "FreeCoAP.Server.C52_calls_partial",
    "FreeCoAP.Server.C52_violated"
   ],
   "note": "Violated by Empty confirmable messages, which are passed to the application. Proved: class 0, CON or NON, at most once for each datagram and never otherwise."
  },
  {
   "property": "C53",
   "status": "partial",
   "theorems": [
    "FreeCoAP.Server.C53_confirmable_partial",
    "FreeCoAP.Server.C53_violated"
   ],
   "note": "Violated: the timer of a separate response is not stopped when a new request replaces it, so the next response, an acknowledgement, is resent. Proved for senders that only ask for paths with separate responses."
  },
  {
   "property": "C30",
   "status": "proved",
   "theorems": [
    "FreeCoAP.Server.C30_released",
    "FreeCoAP.Server.C30_no_starvation"
   ],
   "note": ""
  },
  {
   "property": "C28",
   "status": "proved",
   "theorems": [
    "FreeCoAP.Server.C28_only_blocks",
    "FreeCoAP.Server.C28_download"
   ],
   "note": "C28_only_blocks holds for every history. C28_download assumes that the first request is recognised as new, i.e. its id is not 0 (see C21), that the sender's place is not taken over by others during the download (Kept), and that the application's response has no options of its own. A body whose length is a multiple of the block size is followed by one empty block, which is the last one."
  },
  {
   "property": "C29",
   "status": "proved",
   "theorems": [
    "FreeCoAP.Server.C29_body",
    "FreeCoAP.Server.C29_order",
    "FreeCoAP.Server.C29_large",
    "FreeCoAP.Server.C29_upload"
   ],
   "note": "C29_body holds for every history. The others assume that the first request is recognised as new (id not 0, see C21). That nothing is written outside the body buffer follows from C54, where such a write is undefined behaviour."
  },
  {
   "property": "C54",
   "status": "partial",
   "theorems": [
    "FreeCoAP.Server.C54_no_ub_partial",
    "FreeCoAP.Server.C54_violated"
   ],
   "note": "Violated by a message without payload of exactly the size of the receive buffer (the parser reads the byte after it) and by an empty Block option (its value is read). Proved for all other datagrams; the conditions on the application are AppSafe."
  },
  {
   "property": "C31",
   "status": "proved",
   "theorems": [
    "FreeCoAP.Client.C31_matching_response",
    "FreeCoAP.Client.C31_critical"
   ],
   "note": ""
  },
  {
   "property": "C32",
   "status": "proved",
   "theorems": [
    "FreeCoAP.Client.C32_schedule",
    "FreeCoAP.Client.C32_at_most_five",
    "FreeCoAP.Client.C32_nothing_arrives",
    "FreeCoAP.Client.C32_timeout_only",
    "FreeCoAP.Client.C32_non_once"
   ],
   "note": ""
  },
  {
   "property": "C33",
   "status": "proved",
   "theorems": [
    "FreeCoAP.Client.C33_acknowledged"
   ],
   "note": ""
  },
  {
   "property": "C34",
   "status": "proved",
   "theorems": [
    "FreeCoAP.Client.C34_reset"
   ],
   "note": ""
  },
  {
   "property": "C35",
   "status": "partial",
   "theorems": [
    "FreeCoAP.Client.C35_refused_partial",
    "FreeCoAP.Client.C35_transmitted",
    "FreeCoAP.Client.C35_violated"
   ],
   "note": "Violated as stated: an Empty message is refused with -EBADMSG instead of -EINVAL (C35_violated). Proved: every other such message is refused with -EINVAL, nothing is ever transmitted for them, and what is transmitted otherwise is the caller's message with the id and token of the exchange."
  },
  {
   "property": "C36",
   "status": "proved",
   "theorems": [
    "FreeCoAP.Client.C36_upload"
   ],
   "note": "For a caller's message without Block options of its own. A return value of 0 does not tell success from an unexpected response code; success means that the response confirms (2.31, 2.01, 2.04) or that a body was returned."
  },
  {
   "property": "C37",
   "status": "proved",
   "theorems": [
    "FreeCoAP.Client.C37_download",
    "FreeCoAP.Client.C37_after_upload",
    "FreeCoAP.Client.C37_inside"
   ],
   "note": "For a caller's message without Block options of its own; C37_inside holds for every message."
  },
  {
   "property": "C49",
   "status": "partial",
   "theorems": [
    "FreeCoAP.DataBuf.C49_queue_partial",
    "FreeCoAP.DataBuf.C49_create",
    "FreeCoAP.DataBuf.C49_violated"
   ],
   "note": "Proved when twice the maximum size fits in a size_t (the proxy uses 32768). C49_violated: for a buffer of half the address space, doubling wraps to 0."
  },
  {
   "property": "C39",
   "status": "proved",
   "theorems": [
    "FreeCoAP.Uri.C39_roundtrip",
    "FreeCoAP.Uri.C39_length",
    "FreeCoAP.Uri.C39_injective",
    "FreeCoAP.Uri.C39_set"
   ],
   "note": ""
  },
  {
   "property": "C40",
   "status": "partial",
   "theorems": [
    "FreeCoAP.Uri.C40_roundtrip_partial",
    "FreeCoAP.Uri.C40_rfc_partial",
    "FreeCoAP.Uri.C40_total",
    "FreeCoAP.Uri.C40_violated",
    "FreeCoAP.Uri.C40_violated_at"
   ],
   "note": "Violated: after an authority without port a colon in the path is taken for the start of the port (coap://h/a:b), and without user information an @ in the path for its end. Proved for all other URIs of RFC 3986, and for those without scheme that Readable describes."
  },
  {
   "property": "C41",
   "status": "proved",
   "theorems": [
    "FreeCoAP.Uri.C41_generate",
    "FreeCoAP.Uri.C41_inside"
   ],
   "note": ""
  },
  {
   "property": "C55",
   "status": "partial",
   "theorems": [
    "FreeCoAP.Uri.C55_copy_partial",
    "FreeCoAP.Uri.C55_violated",
    "FreeCoAP.Uri.C55_violated_lost"
   ],
   "note": "Violated: after copying the host and the port the code tests the scheme, so that a URI without scheme cannot be copied and a failed allocation of the host or port goes unnoticed. Proved for URIs with a scheme when these two allocations succeed."
  },
  {
   "property": "C42",
   "status": "partial",
   "theorems": [
    "FreeCoAP.Http.C42_roundtrip_partial",
    "FreeCoAP.Http.C42_violated"
   ],
   "note": "Proved for messages whose body has no NUL, with any bytes after the text. C42_violated: the parser treats the received bytes as a C string, so that a body with a NUL never becomes complete."
  },
  {
   "property": "C43",
   "status": "partial",
   "theorems": [
    "FreeCoAP.Http.C43_inside",
    "FreeCoAP.Http.C43_stable_partial",
    "FreeCoAP.Http.C43_wellformed_partial",
    "FreeCoAP.Http.C43_incomplete_partial",
    "FreeCoAP.Http.C43_chunked_partial",
    "FreeCoAP.Http.C43_violated",
    "FreeCoAP.Http.C43_violated_more"
   ],
   "note": "Proved: nothing is consumed that was not received; an accepted message that is not chunked stays accepted when more bytes follow; every well-formed text (RawMsg.WF, chunked or not, with extensions and trailers) is accepted whatever follows, and each of its proper prefixes is reported as incomplete; any accepted message stays accepted with the same result unless a chunk has a blank line in place of its size (C43_chunked_partial). Violated for malformed texts: a header with its colon on a continuation line (C43_violated), a blank chunk size line (C43_violated_more)."
  },
  {
   "property": "C44",
   "status": "partial",
   "theorems": [
    "FreeCoAP.Http.C44_safe_partial",
    "FreeCoAP.Http.C44_body",
    "FreeCoAP.Http.C44_violated",
    "FreeCoAP.Http.C44_violated_at"
   ],
   "note": "C44_body: the body of every well-formed chunked message is the concatenation of its chunks. Memory safety is violated by chunk sizes that are negative as an int (C44_violated: size FFFFFFFE leads to a memcpy of 2^64-2 bytes); C44_safe_partial proves it for every text in which no line begins with such a size."
  },
  {
   "property": "C56",
   "status": "partial",
   "theorems": [
    "FreeCoAP.Http.C56_generate_partial",
    "FreeCoAP.Http.C56_violated"
   ],
   "note": "Proved for every buffer length but 0; for length 0 and a message with a body, len - 1 wraps and the copy has no bound (C56_violated)."
  },
  {
   "property": "C45",
   "status": "partial",
   "theorems": [
    "FreeCoAP.Cross.C45_kind_partial",
    "FreeCoAP.Cross.C45_registered",
    "FreeCoAP.Cross.C45_table",
    "FreeCoAP.Cross.C45_violated",
    "FreeCoAP.Cross.C45_violated_all"
   ],
   "note": "C45_registered: every response code of RFC 7252 becomes a status of the same kind; C45_table gives the exact status of each. For all codes: proved except 2.00, 2.06, 2.12, 2.13 and 2.15, which fall through to the client errors (C45_violated_all: each of these five becomes a 4xx)."
  },
  {
   "property": "C46",
   "status": "partial",
   "theorems": [
    "FreeCoAP.Cross.C46_options_partial",
    "FreeCoAP.Cross.C46_any",
    "FreeCoAP.Cross.C46_violated"
   ],
   "note": "Proved for URIs whose decoded parts contain no delimiter. Violated: the code decodes the path before splitting it, so that an encoded slash (%2F) in a segment makes two segments."
  },
  {
   "property": "C57",
   "status": "partial",
   "theorems": [
    "FreeCoAP.Cross.C57_roundtrip_partial",
    "FreeCoAP.Cross.C57_inside",
    "FreeCoAP.Cross.C57_violated",
    "FreeCoAP.Cross.C57_violated_percent"
   ],
   "note": "C57_inside: no list of options makes the conversion leave its buffers. The round trip is violated by a slash within a segment (C57_violated) and by a percent sign (C57_violated_percent); proved for options without such characters that fit."
  },
  {
   "property": "C58",
   "status": "proved",
   "theorems": [
    "FreeCoAP.Cross.C58_request",
    "FreeCoAP.Cross.C58_uri",
    "FreeCoAP.Cross.C58_total",
    "FreeCoAP.Cross.C58_accepted"
   ],
   "note": "For header values shorter than 2^32 bytes (the proxy's buffer has at most 32768). The Uri options are those of C46, with its conditions (C58_uri). The numeric values of Accept and Max-Age are the subject of C60."
  },
  {
   "property": "C59",
   "status": "partial",
   "theorems": [
    "FreeCoAP.Cross.C59_response",
    "FreeCoAP.Cross.C59_total",
    "FreeCoAP.Cross.C59_text_partial",
    "FreeCoAP.Cross.C59_violated"
   ],
   "note": "C59_response: status, tags, content and length are those of the CoAP response. That the text is read back as this message is violated by an entity tag with a line break, which injects headers (C59_violated); proved when the tags are tidy and the content has no NUL."
  },
  {
   "property": "C60",
   "status": "partial",
   "theorems": [
    "FreeCoAP.Cross.C60_decimal_partial",
    "FreeCoAP.Cross.C60_violated",
    "FreeCoAP.Cross.C60_violated_lost",
    "FreeCoAP.Cross.C60_violated_request"
   ],
   "note": "Violated: the options are written and read as decimal digits, not as integers in network byte order: Max-Age 53 becomes 5, Max-Age 60 is lost, Accept 0 becomes 48. Proved: within the proxy the decimal number is kept."
  },
  {
   "property": "C61",
   "status": "partial",
   "theorems": [
    "FreeCoAP.Cross.C61_length_partial",
    "FreeCoAP.Cross.C61_violated"
   ],
   "note": "Violated by responses without content, such as 2.04: no Content-Length. Proved for responses with content."
  },
  {
   "property": "C47",
   "status": "partial",
   "theorems": [
    "FreeCoAP.Config.C47_latest",
    "FreeCoAP.Config.C47_map_partial",
    "FreeCoAP.Config.C47_success",
    "FreeCoAP.Config.C47_others",
    "FreeCoAP.Config.C47_violated"
   ],
   "note": "C47_latest is the exact behaviour after any sequence of settings: the value of the last setting of that pair if it succeeded, and nothing otherwise. Violated: a replacement that fails for want of memory removes the old value. Proved as stated when the settings succeed."
  },
  {
   "property": "C48",
   "status": "partial",
   "theorems": [
    "FreeCoAP.Config.C48_applied_partial",
    "FreeCoAP.Config.C48_complete",
    "FreeCoAP.Config.C48_get",
    "FreeCoAP.Config.C48_outside",
    "FreeCoAP.Config.C48_inside_partial",
    "FreeCoAP.Config.C48_failed",
    "FreeCoAP.Config.C48_violated"
   ],
   "note": "Violated: a text whose last line is a setting or heading without a line break makes the parser read behind the text (C48_outside: exactly those). Proved: texts that are empty or end with a line break are safe; success means that the text is in the grammar and its settings were made in order in their sections, and with enough memory every text in the grammar succeeds. For texts of less than 2^32 - 1 characters."
  },
  {
   "property": "C62",
   "status": "proved",
   "theorems": [
    "FreeCoAP.Config.C62_line",
    "FreeCoAP.Config.C62_wrong"
   ],
   "note": "For texts of less than 2^32 - 1 characters."
  },
  {
   "property": "C63",
   "status": "partial",
   "theorems": [
    "FreeCoAP.Config.C63_text_partial",
    "FreeCoAP.Config.C63_violated"
   ],
   "note": "Violated: the table of texts has one more entry than the codes, so that a lexical error is called an input/output error and a syntax error a lexical error; the least integer overflows."
  },
  {
   "property": "C50",
   "status": "partial",
   "theorems": [
    "FreeCoAP.Proxy.C50_sent_partial",
    "FreeCoAP.Proxy.C50_violated"
   ],
   "note": "For every history of responses on a connection. Violated: of a response whose text is exactly as long as the buffer (4096, 8192, 16384 or 32768 bytes), the last byte is replaced by a NUL. Proved for all other lengths; longer responses are not sent; with memory and a socket that takes bytes every response up to the maximum is sent."
  },
  {
   "property": "C64",
   "status": "partial",
   "theorems": [
    "FreeCoAP.Proxy.C64_order_partial",
    "FreeCoAP.Proxy.C64_turns_partial",
    "FreeCoAP.Proxy.C64_violated"
   ],
   "note": "Violated: of requests that arrive together, the second waits in the buffer until more data arrives. Proved: the requests received are always the first ones of the stream, in order and as sent, and receiving ends only for a cause (requests of up to 32641 bytes are never too long); all requests sent one at a time are received, in any segments. For requests in the grammar of Http.RawMsg.WF, with memory for the parser. The segments are what the reads return; that select notices what has arrived over TLS is not part of this property and does not always hold (C95)."
  },
  {
   "property": "C65",
   "status": "partial",
   "theorems": [
    "FreeCoAP.Proxy.C65_sent_partial",
    "FreeCoAP.Proxy.C65_once_partial",
    "FreeCoAP.Proxy.C65_violated"
   ],
   "note": "Violated: DELETE requests are not sent at all. Proved for GET, POST and PUT, from any earlier state of the connection, with the body for POST and PUT."
  },
  {
   "property": "C66",
   "status": "partial",
   "theorems": [
    "FreeCoAP.Proxy.C66_response_partial",
    "FreeCoAP.Proxy.C66_violated",
    "FreeCoAP.Proxy.C66_violated_first_block",
    "FreeCoAP.Proxy.C66_violated_reason"
   ],
   "note": "Violated: the body of a GET request of more than 1024 bytes comes back as the content of the response; of the response to a POST or PUT in blocks only the first is fetched; the reason phrase for 504 is (Unknown). Proved without the first case: the response reflects the result of the last call of the CoAP client."
  },
  {
   "property": "C67",
   "status": "partial",
   "theorems": [
    "FreeCoAP.Proxy.C67_defined_partial",
    "FreeCoAP.Proxy.C67_violated"
   ],
   "note": "Violated: a URI without a port. Proved for URIs with host and port, for every behaviour of the CoAP client within its contract (C37_inside) and CoAP responses without empty Block options (C51)."
  },
  {
   "property": "C38",
   "status": "partial",
   "theorems": [
    "FreeCoAP.EndToEnd.C38_download_partial",
    "FreeCoAP.EndToEnd.C38_upload_partial",
    "FreeCoAP.EndToEnd.C38_upload_success_partial",
    "FreeCoAP.EndToEnd.C38_violated"
   ],
   "note": "For every history of the server, every network that loses, repeats, delays and reorders, and all block sizes. The full claim does not hold for uploads: a delayed part of an earlier upload is accepted in a later one. Proved when no transfer with the client is going on at the start and, for uploads, no other request of this client carries a body; bodies up to 2^24 bytes. For uploads a success also tells that the callback of the application reported success for these bytes."
  },
  {
   "property": "C68",
   "status": "partial",
   "theorems": [
    "FreeCoAP.Client.C68_accepted_partial",
    "FreeCoAP.Client.C68_violated"
   ],
   "note": "Violated: a separate response whose id happens to be that of the request is refused. Proved for all other responses, with what is transmitted."
  },
  {
   "property": "C69",
   "status": "partial",
   "theorems": [
    "FreeCoAP.Client.C69_undisturbed_partial",
    "FreeCoAP.Client.C69_over",
    "FreeCoAP.Client.C69_acknowledged",
    "FreeCoAP.Client.C69_spurious",
    "FreeCoAP.Client.C69_violated"
   ],
   "note": "Violated: a datagram that is no CoAP message, or a message for another exchange with the id of the request, makes the exchange fail. Proved for messages with another token and another id: the exchange goes on as without them. C69_over: what arrives later has no effect."
  },
  {
   "property": "C70",
   "status": "partial",
   "theorems": [
    "FreeCoAP.Client.C70_response_partial",
    "FreeCoAP.Client.C70_violated"
   ],
   "note": "Violated: a message with a request code is accepted as the response. Proved: it is a response or has a request code, never Empty or reserved."
  },
  {
   "property": "C71",
   "status": "partial",
   "theorems": [
    "FreeCoAP.Client.C71_exchange_partial",
    "FreeCoAP.Client.C71_blockwise_partial",
    "FreeCoAP.Client.C71_violated"
   ],
   "note": "Violated: a message without payload that fills the buffer (C08) and, in blockwise exchanges, an empty Block option (C51). Proved for all histories without such datagrams."
  },
  {
   "property": "C72",
   "status": "proved",
   "theorems": [
    "FreeCoAP.Client.C72_answered"
   ],
   "note": "For every datagram that arrives while the exchange waits and no system call fails."
  },
  {
   "property": "C73",
   "status": "proved",
   "theorems": [
    "FreeCoAP.Client.C73_get",
    "FreeCoAP.Client.C73_put",
    "FreeCoAP.Client.C73_method"
   ],
   "note": "Refinement of the transfers to the relations Uploads, Downloads, Resumes and Puts, which list every way a round can go. Executions with undefined behaviour are the subject of C71."
  },
  {
   "property": "C74",
   "status": "partial",
   "theorems": [
    "FreeCoAP.Http.C74_accepted_partial",
    "FreeCoAP.Http.C74_exact",
    "FreeCoAP.Http.C74_unique",
    "FreeCoAP.Http.C74_wellformed",
    "FreeCoAP.Http.C74_violated",
    "FreeCoAP.Http.C74_violated_coding"
   ],
   "note": "Proved for every text: what is accepted is a RawMsg of the form RawMsg.Loose (Http/Spec2.lean) and the result is the message it stands for; conversely every such text without blank chunk size lines is accepted with that message, which makes the characterisation exact; every well-formed text is one of them. Violated: Content-Length counts modulo 2^32 and may be followed by other text; a Transfer-Encoding other than exactly chunked is ignored, so that its body is taken for the next message."
  },
  {
   "property": "C75",
   "status": "partial",
   "theorems": [
    "FreeCoAP.Http.C75_chunk_partial",
    "FreeCoAP.Http.C75_others_partial",
    "FreeCoAP.Http.HexOf.unique",
    "FreeCoAP.Http.C75_violated_every",
    "FreeCoAP.Http.C75_violated"
   ],
   "note": "Proved for the last chunk, trailers and the blank line with every buffer, and for chunks whose size line leaves room in the buffer. Violated in every other case with data (C75_violated_every): when the size line fills the buffer the space left minus one wraps around and the data are written behind the buffer."
  },
  {
   "property": "C76",
   "status": "proved",
   "theorems": [
    "FreeCoAP.Http.C76_roundtrip"
   ],
   "note": "By composition of the texts found in the buffers and of the exactness of the parser. Data, names and values have no NUL; names and values have no whitespace that parsing removes; the body is shorter than 2^31 bytes."
  },
  {
   "property": "C77",
   "status": "partial",
   "theorems": [
    "FreeCoAP.Proxy.C77_order_partial",
    "FreeCoAP.Proxy.C77_answered_partial",
    "FreeCoAP.Proxy.C77_violated"
   ],
   "note": "Refinement of the loop of the connection to the relation Dialog (Proxy/SpecConn.lean), for every stream of well-formed requests and every behaviour of the environment in which processing is defined (C67); all requests sent one at a time are answered if processing comes to a response that fits (C50). Violated: if the CoAP server cannot be reached the connection is closed without a response."
  },
  {
   "property": "C78",
   "status": "partial",
   "theorems": [
    "FreeCoAP.Proxy.C78_single_partial",
    "FreeCoAP.Proxy.C78_violated",
    "FreeCoAP.Proxy.hidden_taken"
   ],
   "note": "Proved for streams of messages whose only transfer coding is chunked. Violated for others: a request in the body of a message with Transfer-Encoding gzip, chunked is sent to the CoAP server."
  },
  {
   "property": "C79",
   "status": "partial",
   "theorems": [
    "FreeCoAP.Tls.C79_own_partial",
    "FreeCoAP.Tls.C79_found_partial",
    "FreeCoAP.Tls.C79_latest_partial",
    "FreeCoAP.Tls.C79_violated",
    "FreeCoAP.Tls.C79_violated_delete"
   ],
   "note": "Proved for every history: what is found was stored under the identifier and is among the last stored; something is found if it was stored recently enough and not deleted; and exactly the latest data if no identifier is stored again while it is there. Violated otherwise: of data stored twice under an identifier the old ones are found, and deleting removes only one of the two."
  },
  {
   "property": "C80",
   "status": "proved",
   "theorems": [
    "FreeCoAP.Tls.C80_queue",
    "FreeCoAP.Tls.C80_own",
    "FreeCoAP.Tls.C80_found",
    "FreeCoAP.Tls.C80_copy"
   ],
   "note": "Refinement of the ring of elements to a queue of n places (Tls/Spec.lean). Addresses are texts that fit into an element. The data are read before anything else is stored (C81)."
  },
  {
   "property": "C81",
   "status": "partial",
   "theorems": [
    "FreeCoAP.Tls.C81_quiet_partial",
    "FreeCoAP.Tls.C81_few_partial",
    "FreeCoAP.Tls.C81_violated"
   ],
   "note": "Proved if nothing is stored for the address in between and the queue still holds it. Violated: the lookup returns a pointer into the cache after the lock was released; if another thread stores a session with the same server, data of two sessions are mixed. Interleavings are modelled at the granularity of calls."
  },
  {
   "property": "C82",
   "status": "proved",
   "theorems": [
    "FreeCoAP.Res.C82_client_create",
    "FreeCoAP.Res.C82_client",
    "FreeCoAP.Res.C82_server_create",
    "FreeCoAP.Res.C82_server"
   ],
   "note": "Programs are trees of calls (Res/Prog.lean), the rules for their use a separate specification (Res/Spec.lean): a run is replayed against them. Proved for every run, including those that stop at any moment, from every sound collection of other objects. One thread at a time. That parameters must outlive credentials is C85."
  },
  {
   "property": "C83",
   "status": "partial",
   "theorems": [
    "FreeCoAP.Res.C83_partial",
    "FreeCoAP.Res.C83_tls_server",
    "FreeCoAP.Res.C83_tls_client",
    "FreeCoAP.Res.C83_sock",
    "FreeCoAP.Res.C83_listener",
    "FreeCoAP.Res.C83_violated"
   ],
   "note": "Each thread is a program of its own and every interleaving of their calls is a run (Fixed.Runs). Proved for every run if descriptor 0 is in use. Violated otherwise: accept may return descriptor 0, which tls_ssock_accept takes for a failure and never closes."
  },
  {
   "property": "C84",
   "status": "partial",
   "theorems": [
    "FreeCoAP.Res.C84_client",
    "FreeCoAP.Res.C84_server",
    "FreeCoAP.Res.C84_sock",
    "FreeCoAP.Res.C84_accept",
    "FreeCoAP.Res.C84_proxy_partial",
    "FreeCoAP.Res.C84_violated_every",
    "FreeCoAP.Res.C84_violated"
   ],
   "note": "Proved for CoAP clients and servers and for the TLS sockets of the proxy. Violated by the proxy as a CoAP client: it passes no name, so that any certificate of a trusted authority is accepted for any host; proved of it is that the certificate is signed and valid."
  },
  {
   "property": "C85",
   "status": "partial",
   "theorems": [
    "FreeCoAP.Res.C85_client_partial",
    "FreeCoAP.Res.C85_tls_client_partial",
    "FreeCoAP.Res.C85_server_partial",
    "FreeCoAP.Res.C85_violated_server",
    "FreeCoAP.Res.C85_violated_tls_server",
    "FreeCoAP.Res.C85_violated_tls_client",
    "FreeCoAP.Res.C85_violated"
   ],
   "note": "Proved for CoAP clients, for the destruction of CoAP servers, and for TLS clients without a key. Violated by the creation of a CoAP server when the priorities cannot be created, and whenever credentials of the proxy with parameters are destroyed."
  },
  {
   "property": "C86",
   "status": "partial",
   "theorems": [
    "FreeCoAP.Res.C86_start_partial",
    "FreeCoAP.Res.C86_life_partial",
    "FreeCoAP.Res.C86_violated_init",
    "FreeCoAP.Res.C86_violated_stats",
    "FreeCoAP.Res.C86_violated_stop",
    "FreeCoAP.Res.C86_violated"
   ],
   "note": "Proved: no call of a start breaks the rules, and a failed start leaves at most one initialisation of GnuTLS or the lock of the statistics; a proxy without statistics whose threads have all ended before it is stopped leaves nothing. Violated: GnuTLS stays initialised when the priorities cannot be created; the lock of the statistics is never destroyed; main does not wait for the threads and frees credentials to which sessions refer."
  },
  {
   "property": "C87",
   "status": "partial",
   "theorems": [
    "FreeCoAP.EndToEnd.C87_answer_partial",
    "FreeCoAP.EndToEnd.C87_once_partial",
    "FreeCoAP.EndToEnd.C87_violated"
   ],
   "note": "C87_answer_partial, for every history: the application was called with exactly this request and with no other one of this token, and the response is its answer, or 4.02 if a critical option is unknown to the server. Exactly once if the server remembers the client (C87_once_partial). Violated: a server that cannot send its response forgets the request and executes the retransmission again. Options must survive transmission, see C05."
  },
  {
   "property": "C88",
   "status": "partial",
   "theorems": [
    "FreeCoAP.Param.C88_values_partial",
    "FreeCoAP.Param.C88_values_nul",
    "FreeCoAP.Param.C88_complete",
    "FreeCoAP.Param.C88_safe_partial",
    "FreeCoAP.Param.C88_released",
    "FreeCoAP.Param.C88_violated_safe",
    "FreeCoAP.Param.C88_violated_length",
    "FreeCoAP.Param.C88_violated_nul",
    "FreeCoAP.Param.C88_violated"
   ],
   "note": "Proved: the values and defaults for the text up to the first NUL (the whole text if there is none), acceptance of every configuration, release of everything on failure, and safety unless the last line has no line break or the length is the greatest long. Violated in these two cases and by files with a NUL, whose rest is ignored."
  },
  {
   "property": "C89",
   "status": "proved",
   "theorems": [
    "FreeCoAP.Param.C89_printed",
    "FreeCoAP.Param.C89_errors",
    "FreeCoAP.Param.C89_proxy"
   ],
   "note": ""
  },
  {
   "property": "C90",
   "status": "partial",
   "theorems": [
    "FreeCoAP.Proxy.C90_answer_partial",
    "FreeCoAP.Proxy.C90_once_partial",
    "FreeCoAP.Proxy.C90_violated"
   ],
   "note": "C90_answer_partial, for every history: the proxy made one exchange with the server in the URI, the application was called with this request and with no other one of its token, and the HTTP response is its answer. Exactly once if the server remembers the client (C90_once_partial). Violated as C87. Options must survive transmission (C05, C06)."
  },
  {
   "property": "C91",
   "status": "partial",
   "theorems": [
    "FreeCoAP.Sample.C91_map_partial",
    "FreeCoAP.Sample.C91_server_partial",
    "FreeCoAP.Sample.C91_violated",
    "FreeCoAP.Sample.C91_violated_long"
   ],
   "note": "For ids of at most 31 bytes and all sequences of calls in which only the first entry is deleted (C91_map_partial), in particular all sequences without deletions, as in the sample server (C91_server_partial). Violated: deleting an entry does not unlink it from its neighbours (use after free); longer ids are truncated and never found again."
  },
  {
   "property": "C92",
   "status": "proved",
   "theorems": [
    "FreeCoAP.Sample.C92_registered"
   ],
   "note": "The server program is the model of coap_server.c with the callback of reg_server.c and the registrar; the client program is the model of coap_client.c with reg_client.c. Between them is any network that does not invent datagrams with the token of the exchange."
  },
  {
   "property": "C93",
   "status": "partial",
   "theorems": [
    "FreeCoAP.Sample.C93_saved_partial",
    "FreeCoAP.Sample.C93_violated",
    "FreeCoAP.Sample.C93_violated_refused",
    "FreeCoAP.Sample.C93_violated_close"
   ],
   "note": "The full claim does not hold: transfer_client_execute returns 0 when the exchange fails and when the server answers with an error, and the server answers 2.04 without looking at the result of fclose. Proved when the code of the response in the log of the client is 2.01 or 2.04 and fclose does not fail, with the restrictions of C38."
  },
  {
   "property": "C94",
   "status": "partial",
   "theorems": [
    "FreeCoAP.Sample.C94_time_partial",
    "FreeCoAP.Sample.C94_defined_partial",
    "FreeCoAP.Sample.C94_method",
    "FreeCoAP.Sample.C94_resource",
    "FreeCoAP.Sample.C94_violated"
   ],
   "note": "The part about success is proved in full. The part about undefined behaviour does not hold: for a response without a payload the client calls memcpy with a null pointer. It is proved for responses that have a payload."
  },
  {
   "property": "C95",
   "status": "partial",
   "theorems": [
    "FreeCoAP.Proxy.C95_arrived_partial",
    "FreeCoAP.Proxy.C95_late",
    "FreeCoAP.Proxy.C95_violated"
   ],
   "note": "The full claim does not hold: of a record that is longer than the space in the buffer the rest stays with GnuTLS, and connection_recv waits with select, which does not see it. Every request of more than 4096 bytes in one record times out (C95_late). Proved for requests of up to 4096 bytes in any records, and for longer ones in records of up to 128 bytes."
  },
  {
   "property": "C96",
   "status": "partial",
   "theorems": [
    "FreeCoAP.Tls.Io.C96_stream_partial",
    "FreeCoAP.Tls.Io.C96_violated",
    "FreeCoAP.Tls.Io.C96_violated_write",
    "FreeCoAP.Tls.Io.C96_violated_descriptor"
   ],
   "note": "The full claim does not hold: tls_sock_read_full and tls_sock_write_full do not report the bytes that they have read or sent before a failure, and FD_SET is undefined for a descriptor of 1024 or more. Proved for descriptors below 1024 and histories in which no full read or write gives up; in all other histories the bytes given are still a subsequence of the stream."
  },
  {
   "property": "C97",
   "status": "partial",
   "theorems": [
    "FreeCoAP.Tls.Io.C97_timeout_partial",
    "FreeCoAP.Tls.Io.C97_violated"
   ],
   "note": "The full claim does not hold: the timeout starts again with each renegotiation and with each part of a full read or write. Proved for writes and handshakes, and with a factor for reads (renegotiations) and for full reads and writes (bytes)."
  },
  {
   "property": "C98",
   "status": "proved",
   "theorems": [
    "FreeCoAP.Server.Dtls.C98_same_server",
    "FreeCoAP.Server.Dtls.C98_same_ub"
   ],
   "note": "For every TLS library, seen as a program over the call-backs of the server. The datagrams by which a record is sent are not modelled."
  },
  {
   "property": "C99",
   "status": "proved",
   "theorems": [
    "FreeCoAP.Server.Dtls.C99_datagrams"
   ],
   "note": "For every TLS library. A datagram longer than the buffer of the library is cut, as by recvfrom."
  },
  {
   "property": "C100",
   "status": "proved",
   "theorems": [
    "FreeCoAP.Server.Dtls.C100_served"
   ],
   "note": "For every TLS library. That the certificate check is right is C84."
  },
  {
   "property": "C101",
   "status": "partial",
   "theorems": [
    "FreeCoAP.Server.Dtls.C101_others_partial",
    "FreeCoAP.Server.Dtls.C101_violated"
   ],
   "note": "The full claim does not hold: when all eight places are taken, a datagram of a ninth sender ends the oldest session before its own handshake. Proved if the sender has a session or a place is free."
  },
  {
   "property": "C102",
   "status": "partial",
   "theorems": [
    "FreeCoAP.Server.Dtls.C102_callbacks_partial",
    "FreeCoAP.Server.Dtls.C102_errors",
    "FreeCoAP.Server.Dtls.C102_violated",
    "FreeCoAP.Server.Dtls.C102_violated_empty",
    "FreeCoAP.Server.Dtls.C102_stuck",
    "FreeCoAP.Server.Dtls.C102_livelock"
   ],
   "note": "The full claim does not hold: a datagram of another sender at the head of the queue ends the handshake or session, and an empty datagram is reported as a timeout and never taken from the queue, after which the server serves nobody. Proved when all datagrams in the queue are of the client and not empty."
  },
  {
   "property": "C103",
   "status": "proved",
   "theorems": [
    "FreeCoAP.Client.Dtls.C103_same_client"
   ],
   "note": "For every TLS library, seen as a program over the call-backs of the client. The datagrams by which a record is sent are not modelled."
  },
  {
   "property": "C104",
   "status": "partial",
   "theorems": [
    "FreeCoAP.Client.Dtls.C104_order",
    "FreeCoAP.Client.Dtls.C104_given_partial",
    "FreeCoAP.Client.Dtls.C104_exchange_partial",
    "FreeCoAP.Client.Dtls.C104_violated",
    "FreeCoAP.Client.Dtls.C104_timeout"
   ],
   "note": "The full claim does not hold: the second record of a datagram stays with GnuTLS, where select does not see it. Proved in full: no record is lost, repeated or reordered. Proved when each datagram carries at most one record: every record is given to the client and the exchange returns what it returns without DTLS."
  },
  {
   "property": "C105",
   "status": "partial",
   "theorems": [
    "FreeCoAP.Client.Dtls.C105_pull",
    "FreeCoAP.Client.Dtls.C105_errors",
    "FreeCoAP.Client.Dtls.C105_callbacks_partial",
    "FreeCoAP.Client.Dtls.C105_violated",
    "FreeCoAP.Client.Dtls.C105_stuck"
   ],
   "note": "The full claim does not hold: an empty datagram is reported as a timeout. Proved in full for the function that receives, and for the function that waits when no empty datagram has arrived."
  },
  {
   "property": "C106",
   "status": "proved",
   "theorems": [
    "FreeCoAP.Client.Dtls.C106_created"
   ],
   "note": "For every TLS library. That the certificate check is right is C84."
  },
  {
   "property": "C107",
   "status": "partial",
   "theorems": [
    "FreeCoAP.Server.Dtls.C107_order",
    "FreeCoAP.Server.Dtls.C107_given_partial",
    "FreeCoAP.Server.Dtls.C107_turn",
    "FreeCoAP.Server.Dtls.C107_violated",
    "FreeCoAP.Server.Dtls.C107_unanswered"
   ],
   "note": "The full claim does not hold: the second record of a datagram stays with GnuTLS, where select does not see it. Proved in full: no record is lost, repeated, reordered or given for another client, and what the server does with a record is what it does with a datagram without DTLS. Proved when each datagram carries at most one record: every record is given to the server."
  },
  {
   "property": "C108",
   "status": "partial",
   "theorems": [
    "FreeCoAP.Mem.C108_threads_partial",
    "FreeCoAP.Mem.C108_locked",
    "FreeCoAP.Mem.C108_one_thread",
    "FreeCoAP.Mem.C108_same_buffer",
    "FreeCoAP.Mem.C108_lost",
    "FreeCoAP.Mem.C108_violated"
   ],
   "note": "The full claim does not hold: the pools have no lock. Proved for every schedule in which no thread works at a byte of the bitset that another thread has read and is about to write, so in particular if a lock were held during each call, and for a program with one thread. Accesses to a byte of the bitset are atomic in the model."
  },
  {
   "property": "C109",
   "status": "partial",
   "theorems": [
    "FreeCoAP.EndToEnd.C109_answered_partial",
    "FreeCoAP.EndToEnd.C109_repeated_partial",
    "FreeCoAP.EndToEnd.C109_separate_partial",
    "FreeCoAP.EndToEnd.C109_violated"
   ],
   "note": "The full claim does not hold: the client's message ids are random. Proved for all requests whose id is neither 0 nor that of the previous request the server received from the client nor, for responses that do not come with the acknowledgement, the one the server chooses for the response. A lost response that comes with the acknowledgement reaches the client through a repetition of the request, a lost separate one through the server's timer."
  },
  {
   "property": "C110",
   "status": "partial",
   "theorems": [
    "FreeCoAP.EndToEnd.C110_download_partial",
    "FreeCoAP.EndToEnd.C110_goes_on",
    "FreeCoAP.EndToEnd.C110_possible",
    "FreeCoAP.EndToEnd.C110_violated"
   ],
   "note": "The full claim does not hold: the client's message ids are random. Proved for every sequence of turns in which the id of no request is 0, that of the previous request or, for responses that do not come with the acknowledgement, the one the server chooses for the response; the server must not need the client's record for another client between two turns (C23), and the application gives the response no options of its own. C110_goes_on says that there is a next turn as long as blocks are missing, and C110_possible that from every history with a well-behaved application there are turns that transfer everything."
  },
  {
   "property": "C111",
   "status": "partial",
   "theorems": [
    "FreeCoAP.EndToEnd.C111_possible",
    "FreeCoAP.EndToEnd.C111_upload_partial",
    "FreeCoAP.EndToEnd.C111_goes_on",
    "FreeCoAP.EndToEnd.C111_violated",
    "FreeCoAP.EndToEnd.C111_empty_violated"
   ],
   "note": "An empty body cannot be sent in blocks at all (C111_empty_violated); the other theorems are about bodies that are not empty. The full claim does not hold: the client's message ids are random. Proved for every sequence of turns in which the id of no request is 0, that of the previous request or, for responses that do not come with the acknowledgement, the one the server chooses for the response; the server must not need the client's record for another client between two turns (C23). The application gives the response no options of its own and its receiver answers 2.01 or 2.04 without a body. C111_goes_on says that there is a next turn as long as blocks are missing."
  },
  {
   "property": "C112",
   "status": "partial",
   "theorems": [
    "FreeCoAP.EndToEnd.C112_exchange_partial",
    "FreeCoAP.EndToEnd.C112_too_long",
    "FreeCoAP.EndToEnd.C112_goes_on",
    "FreeCoAP.EndToEnd.C112_possible",
    "FreeCoAP.EndToEnd.C112_violated"
   ],
   "note": "The full claim does not hold: the length of the body that is sent is also the limit of the answer, whatever the size of the buffer. Proved for answers that are not longer than the uploaded body and, as C111, for every sequence of turns in which the id of no request is 0, that of the previous request or, for responses that do not come with the acknowledgement, the one the server chooses for the response. The application gives the response no options of its own and answers 2.01 or 2.04. C112_too_long says that a longer answer is always refused, and in which turn. C112_goes_on says that there is a next turn as long as blocks are missing, and C112_possible that from every history with a well-behaved application there are turns until the call returns."
  },
  {
   "property": "C113",
   "status": "partial",
   "theorems": [
    "FreeCoAP.Server.C113_answered_partial",
    "FreeCoAP.Server.C113_served",
    "FreeCoAP.Server.C113_refused",
    "FreeCoAP.Server.C113_violated"
   ],
   "note": "The full claim does not hold for message id 0 (see C21). Proved for all other ids and for a pool with a buffer for each of the eight transactions. The application reports no error, its responses fit in the buffer, and in a transfer it adds no options of its own; C113_served adds that the history takes place at all (C54)."
  },
  {
   "property": "C114",
   "status": "proved",
   "theorems": [
    "FreeCoAP.Proxy.Stats.C114_reports",
    "FreeCoAP.Proxy.Stats.C114_counted",
    "FreeCoAP.Proxy.Stats.C114_totals",
    "FreeCoAP.Proxy.Stats.C114_exclusive",
    "FreeCoAP.Proxy.Stats.C114_lock_results",
    "FreeCoAP.Proxy.Stats.C114_goes_on"
   ],
   "note": "A step is one access to a counter or one operation on the lock; accesses are sequentially consistent, which is what a program without data races sees, and C114_exclusive shows that there are none. The four lines of a report are one event."
  },
  {
   "property": "C115",
   "status": "partial",
   "theorems": [
    "FreeCoAP.Proxy.C115_violated",
    "FreeCoAP.Proxy.C115_answered_partial",
    "FreeCoAP.Proxy.C115_connection_partial"
   ],
   "note": "Violated: a request whose random id is the one of the request before is taken for its repetition; the application is not called and the HTTP client gets 502. The partial theorems hold for ids that are not 0, not the one of the previous request and (for responses that do not come with the acknowledgement) not the one the server chooses, and for methods other than DELETE (C65). Requests and answers in blocks are not covered; the text of the responses needs entity tags and content that HTTP can have (C59)."
  },
  {
   "property": "C116",
   "status": "partial",
   "theorems": [
    "FreeCoAP.EndToEnd.C116_first_partial",
    "FreeCoAP.EndToEnd.C116_continued_partial",
    "FreeCoAP.EndToEnd.C116_goes_on",
    "FreeCoAP.EndToEnd.C116_possible",
    "FreeCoAP.Proxy.C116_violated",
    "FreeCoAP.Proxy.C116_fetched_partial",
    "FreeCoAP.Proxy.C116_connection_partial"
   ],
   "note": "Violated: as C110 and C115, a request whose random id is the one of the request before is taken for its repetition, and the HTTP client gets 502. The partial theorems hold for ids that the server does not take for something else. On a connection the text of the response must not have exactly the length of the buffer, which excludes bodies of 4055 and 8151 bytes (C50), and the content must have no zero byte (C59). Applications that add options of their own to the blocks are not covered, nor bodies of more than 8192 bytes, for which the proxy has no room."
  },
  {
   "property": "C117",
   "status": "partial",
   "theorems": [
    "FreeCoAP.EndToEnd.C111_possible",
    "FreeCoAP.Proxy.C117_violated",
    "FreeCoAP.Proxy.C117_sent_partial",
    "FreeCoAP.Proxy.C117_returns",
    "FreeCoAP.Proxy.C117_connection_partial"
   ],
   "note": "Violated: as C111, a request whose random id is the one of the request before is taken for its repetition, and the HTTP client gets 502. The partial theorems hold for ids that the server does not take for something else. The application answers 2.01 or 2.04 without a body; an answer with a body is C118."
  },
  {
   "property": "C118",
   "status": "partial",
   "theorems": [
    "FreeCoAP.EndToEnd.C112_too_long",
    "FreeCoAP.EndToEnd.C112_possible",
    "FreeCoAP.Proxy.C118_violated",
    "FreeCoAP.Proxy.C118_too_long",
    "FreeCoAP.Proxy.C118_answered_partial",
    "FreeCoAP.Proxy.C118_returns",
    "FreeCoAP.Proxy.C118_connection_partial"
   ],
   "note": "Violated: the proxy passes the length of the body of the request, which the library also takes for the limit of the answer. C118_too_long: an answer that is longer than the body of the request never reaches the HTTP client; it gets 501 after the application has taken the body. The partial theorems hold for answers that are not longer and, as C112, for ids that the server does not take for something else. On a connection the text of the response must not have exactly the length of the buffer, which excludes answers of 4055 and 8151 bytes (C50), and the answer must have no zero byte (C59). The application gives the response no options of its own and answers 2.01 or 2.04."
  },
  {
   "property": "C119",
   "status": "partial",
   "theorems": [
    "FreeCoAP.Proxy.C119_violated",
    "FreeCoAP.Proxy.C119_too_long",
    "FreeCoAP.Proxy.C119_answered_partial",
    "FreeCoAP.Proxy.C119_taken_partial",
    "FreeCoAP.Proxy.C119_connection_partial"
   ],
   "note": "Violated: as C118, an answer that is longer than the body of the request never reaches the HTTP client (C119_too_long), which is more likely here, as these bodies are small. The partial theorems hold for answers that are not longer, or without a body, and for ids that the server does not take for something else. The second part begins when the server is in no transfer with the proxy. On a connection the answer must have no zero byte (C59). The application gives the response to the blocks no options of its own and answers 2.01 or 2.04. Not covered: an empty body that is refused, which the proxy would send in blocks of length 0."
  },
  {
   "property": "C120",
   "status": "partial",
   "theorems": [
    "FreeCoAP.Util.C120_violated",
    "FreeCoAP.Util.C120_copy_partial",
    "FreeCoAP.Util.C120_append_partial",
    "FreeCoAP.Util.C120_sequence_partial"
   ],
   "note": "Violated for a buffer of length 0: the functions return 0 and not the length (C120_violated). Everything is proved for lengths of at least 1; C120_copy_partial and C120_append_partial give the exact content of the buffer. The length of the whole text is taken to be representable in size_t."
  },
  {
   "property": "C121",
   "status": "proved",
   "theorems": [
    "FreeCoAP.Proxy.C121_answered",
    "FreeCoAP.Proxy.C121_connection"
   ],
   "note": "The conditions on the ids are those without which C109 and C115 are violated. On a connection the answer must have no zero byte and no unreadable entity tag (C59)."
  },
  {
   "property": "C122",
   "status": "partial",
   "theorems": [
    "FreeCoAP.EndToEnd.Dtls.C122_violated",
    "FreeCoAP.EndToEnd.Dtls.C122_answered_partial"
   ],
   "note": "Violated as C109: a request with the random id of the previous one is taken for its repetition (C122_violated). Proved for all other ids, not 0 and, for separate and non-confirmable responses, not the one the server chooses. Two records in one datagram: see C104 and C107."
  },
  {
   "property": "C123",
   "status": "partial",
   "theorems": [
    "FreeCoAP.Proxy.Reason.C123_violated",
    "FreeCoAP.Proxy.Reason.C123_socket",
    "FreeCoAP.Proxy.Reason.C123_parser",
    "FreeCoAP.Proxy.Reason.C123_text",
    "FreeCoAP.Proxy.Reason.C123_format",
    "FreeCoAP.Proxy.Reason.C123_reason_partial"
   ],
   "note": "Violated: every text that the HTTP parser refuses is logged as '(unknown)', as the result of select is given to http_msg_strerror in place of the result of the parser (C123_violated). Proved for all other outcomes."
  },
  {
   "property": "C124",
   "status": "partial",
   "theorems": [
    "FreeCoAP.Client.C124_violated",
    "FreeCoAP.Client.C124_download_partial",
    "FreeCoAP.Client.C124_after_upload_partial"
   ],
   "note": "Violated: the client does not compare the ETags of the blocks, so that a resource that changes during the download is returned as a mixture (C124_violated). Proved for every server whose resource does not change during the download."
  },
  {
   "property": "C125",
   "status": "partial",
   "theorems": [
    "FreeCoAP.Server.C125_violated",
    "FreeCoAP.Server.C125_violated_more",
    "FreeCoAP.Server.C125_blocks_partial"
   ],
   "note": "Violated in two ways: all blocks but the last have the code 2.31 (Continue), which RFC 7959 has for the blocks of a request only (C125_violated); and when the size of the body is a multiple of the block size, the last full block says that there are more, and an empty block follows (C125_violated_more). Proved: the option, the payload, the flag for all other sizes, and the code of the last block."
  },
  {
   "property": "C126",
   "status": "partial",
   "theorems": [
    "FreeCoAP.EndToEnd.C126_violated",
    "FreeCoAP.EndToEnd.C126_violated_late",
    "FreeCoAP.Client.C126_download",
    "FreeCoAP.Client.C126_upload_partial"
   ],
   "note": "Proved in full for GET (C126_download). For PUT and POST violated in two ways: an answer that is in the response as a whole, without a Block2 option, ends the transfer with EBADMSG although the server has accepted the body (C126_violated); and a confirmation of a block other than the first one that asks for smaller blocks is refused, as its number is taken for one of the smaller blocks (C126_violated_late). Proved for servers that do neither."
  },
  {
   "property": "C127",
   "status": "partial",
   "theorems": [
    "FreeCoAP.Server.C127_violated",
    "FreeCoAP.Server.C127_idle_partial",
    "FreeCoAP.Server.C127_once_partial"
   ],
   "note": "Violated: the first new request after an abandoned transfer is taken for its continuation and answered 4.00 without a call of the application, however long ago the transfer was given up (C127_violated). Proved: every new request of a sender without an open transfer reaches the application (C127_idle_partial), and after one request that was refused in this way the next one does (C127_once_partial)."
  },
  {
   "property": "C128",
   "status": "partial",
   "theorems": [
    "FreeCoAP.Server.C128_download",
    "FreeCoAP.Server.C128_upload_partial",
    "FreeCoAP.Server.C128_violated"
   ],
   "note": "Proved in full for downloads (C128_download). For uploads violated: if the application wants smaller blocks than the client sends, and the client goes on with its size (RFC 7959 says that it SHOULD change it), the second block is answered 4.08 (C128_violated). Proved for clients that send no block but the first one in a larger size than the server wants (C128_upload_partial)."
  },
  {
   "property": "C129",
   "status": "partial",
   "theorems": [
    "FreeCoAP.Server.Sep.C129_separate_partial",
    "FreeCoAP.Server.Sep.C129_decided",
    "FreeCoAP.Server.Sep.C129_model",
    "FreeCoAP.Server.Sep.C129_add",
    "FreeCoAP.Server.Sep.C129_destroy",
    "FreeCoAP.Server.Sep.C129_violated",
    "FreeCoAP.Server.Sep.C129_violated_longer",
    "FreeCoAP.Server.Sep.C129_violated_zero"
   ],
   "note": "Registration, its failures and the destruction are proved in full. The decision compares only the first 255 bytes of the path, up to a zero byte (C129_decided, for every request): a registered path of 256 bytes never gets a separate response, and a longer path with the same first 255 bytes or with a zero byte after a registered path does (C129_violated*). C129_separate_partial has the hypotheses that the path has at most 255 bytes and no zero byte."
  },
  {
   "property": "C130",
   "status": "partial",
   "theorems": [
    "FreeCoAP.Server.Buf.C130_exact_partial",
    "FreeCoAP.Server.Buf.C130_lost_partial",
    "FreeCoAP.Server.Buf.C130_destroy",
    "FreeCoAP.Server.Buf.C130_violated",
    "FreeCoAP.Server.Buf.C130_exhausted"
   ],
   "note": "Violated through the fault of C13: each datagram with an option that is longer than a buffer of the medium pool costs the server a buffer of the small pool for good, and after as many datagrams as there are buffers it can receive nothing with an option any more (C130_violated, C130_exhausted). Proved for every history: nothing else is lost (C130_lost_partial), and the full statement when the medium pool refuses no request (C130_exact_partial)."
  },
  {
   "property": "C131",
   "status": "partial",
   "theorems": [
    "FreeCoAP.Client.Buf.C131_exact_partial",
    "FreeCoAP.Client.Buf.C131_lost_partial",
    "FreeCoAP.Client.Buf.C131_violated"
   ],
   "note": "Violated: when the request cannot be copied for a block the exchange returns ENOMEM and keeps the buffers of the options that were copied (C131_violated). Proved for every history in which no exchange returns ENOMEM: nothing is lost but through the fault of C13 (C131_lost_partial), and the full statement when in addition the medium pool refuses no request (C131_exact_partial)."
  },
  {
   "property": "C132",
   "status": "partial",
   "theorems": [
    "FreeCoAP.Server.Buf.C132_enough_partial",
    "FreeCoAP.Server.Buf.C132_samples_partial",
    "FreeCoAP.Server.Buf.C132_violated",
    "FreeCoAP.Server.Buf.C132_held"
   ],
   "note": "Violated: one datagram with 129 options uses up the small pool of the samples (C132_violated), and a request that a fresh server takes is refused when eight other clients have made one request each, because their messages keep their buffers (C132_held). Proved for every history and every size of the pools: with n transactions and at most k options in requests and responses, (2n+2)k buffers of the small pool and (2n+2)(k+1) of the medium pool are enough (C132_enough_partial); for the samples that is six options (C132_samples_partial)."
  },
  {
   "property": "C133",
   "status": "proved",
   "theorems": [
    "FreeCoAP.Client.Buf.C133_enough",
    "FreeCoAP.Client.Buf.C133_needed"
   ],
   "note": "C133_needed shows that the buffers for a copy of the request alone are not enough."
  },
  {
   "property": "C134",
   "status": "partial",
   "theorems": [
    "FreeCoAP.Proxy.Fds.C134_limit_partial",
    "FreeCoAP.Proxy.Fds.C134_clients_partial",
    "FreeCoAP.Proxy.Fds.C134_exhausted",
    "FreeCoAP.Proxy.Fds.C134_violated"
   ],
   "note": "Violated: nothing limits the number of connections, and in a process that may have more than 1024 descriptors enough clients that connect and send nothing make the proxy write outside of a descriptor set (C134_exhausted, for every such limit and start; C134_violated). Proved for every history if the limit of the process is at most 1024, which is the usual one (C134_limit_partial), or if the listening sockets, three descriptors per client and the other descriptors are never more than 1024 (C134_clients_partial)."
  },
  {
   "property": "C135",
   "status": "partial",
   "theorems": [
    "FreeCoAP.Client.Dtls.C135_same_client",
    "FreeCoAP.EndToEnd.Dtls.C135_download_partial",
    "FreeCoAP.EndToEnd.Dtls.C135_upload_partial",
    "FreeCoAP.EndToEnd.Dtls.C135_violated"
   ],
   "note": "C135_same_client: every blockwise transfer of the client over DTLS is one of the client without DTLS whose datagrams are the delivered records. Downloads and uploads are proved under the conditions of C38 (no transfer with the client under way, no part of an earlier upload delivered during this one). Without the latter the claim is violated although DTLS is used: a late record of an earlier upload, which the client itself has sent twice, continues a later one (C135_violated)."
  },
  {
   "property": "C136",
   "status": "proved",
   "theorems": [
    "FreeCoAP.Client.Dtls.C136_datagrams",
    "FreeCoAP.Client.Dtls.C136_all"
   ],
   "note": "For every library, every list of calls and every failure. A datagram may be cut to the length that the library asks for. That the records in the datagrams reach the exchanges is C104."
  },
  {
   "property": "C137",
   "status": "partial",
   "theorems": [
    "FreeCoAP.Sample.Buf.C137_lost_partial",
    "FreeCoAP.Sample.Buf.C137_given_partial",
    "FreeCoAP.Sample.Buf.C137_limit",
    "FreeCoAP.Sample.Buf.C137_files",
    "FreeCoAP.Sample.Buf.C137_violated"
   ],
   "note": "False in full: transfer_client_execute does not destroy its two messages when the transfer succeeds (C137_violated), so at most half as many transfers succeed as the small pool has buffers (C137_limit). Proved: the other two clients, failed transfers other than for lack of memory, and the file and the memory on every path."
  },
  {
   "property": "C138",
   "status": "proved",
   "theorems": [
    "FreeCoAP.Res.C138_client",
    "FreeCoAP.Res.C138_server"
   ],
   "note": "For every result of every call and every moment at which a run is stopped. For the servers the reference of the credentials to the Diffie-Hellman parameters is not counted (that is property C85). The file of the transfer client and the buffers inside the pools are property C137."
  },
  {
   "property": "C139",
   "status": "partial",
   "theorems": [
    "FreeCoAP.Server.Fds.C139_limit_partial",
    "FreeCoAP.Server.Fds.C139_counts_partial",
    "FreeCoAP.Server.Fds.C139_exact",
    "FreeCoAP.Server.Fds.C139_client",
    "FreeCoAP.Server.Fds.C139_violated"
   ],
   "note": "Proved if the limit of the process is at most 1024, or if nine descriptors for each server, two for each client and all others are never more than 1024. The second bound is exact for one server: with 1016 other descriptors (and a higher limit) eight clients make the server write outside of its descriptor set, which is proved."
  },
  {
   "property": "C140",
   "status": "partial",
   "theorems": [
    "FreeCoAP.EndToEnd.C140_session_partial",
    "FreeCoAP.EndToEnd.C140_violated"
   ],
   "note": "Client and server composed into one program, from a new server, by induction over the requests, for any number of clients (also more than the server has transactions). Proved for ids other than 0 and that of the previous request of the same client; without this the claim fails, which is proved (ids are random). Confirmable requests with piggybacked responses; separate responses are in C109."
  },
  {
   "property": "C141",
   "status": "partial",
   "theorems": [
    "FreeCoAP.EndToEnd.C141_once_partial",
    "FreeCoAP.EndToEnd.C141_violated"
   ],
   "note": "Client and server composed, from a new server, by induction over the requests; all copies of a request arrive before its exchange ends, and the client sees only its timer before the response. Proved for ids other than 0 and that of the previous request of the same client; without this the claim fails, which is proved. Confirmable requests with piggybacked responses."
  },
  {
   "property": "C142",
   "status": "partial",
   "theorems": [
    "FreeCoAP.EndToEnd.C142_mixed_partial",
    "FreeCoAP.EndToEnd.C142_violated"
   ],
   "note": "Client and server composed, from a new server, by induction over the requests, with arbitrary events other than requests in between. Proved if the ids that the server chooses for responses that are not piggybacked differ from the ids of the requests; without this the claim fails, which is proved. The ids of the requests are not 0 and differ from the previous one of the same client (C140)."
  },
  {
   "property": "C143",
   "status": "partial",
   "theorems": [
    "FreeCoAP.Server.Simple.C143_simple_partial",
    "FreeCoAP.Server.Simple.C143_once_partial",
    "FreeCoAP.Server.Simple.C143_exact",
    "FreeCoAP.Server.Simple.C143_zero",
    "FreeCoAP.Server.Simple.C143_violated"
   ],
   "note": "Refinement of the server to a server with a map from clients to their last request and response, by induction over the requests. Proved for at most eight clients and ids other than 0, for applications that answer at once; with nine clients, or with id 0, it fails, which is proved. The sequences consist of correct requests only; for other events in between see C142, for transfers in blocks C124-C128."
  },
  {
   "property": "C144",
   "status": "proved",
   "theorems": [
    "FreeCoAP.Proxy.C144_request",
    "FreeCoAP.Proxy.C144_response",
    "FreeCoAP.Sample.C144_path"
   ],
   "note": "When there is memory. The statements name the numbers, not the constants of the model."
  },
  {
   "property": "C145",
   "status": "proved",
   "theorems": [
    "FreeCoAP.Server.Machine.C145_machine",
    "FreeCoAP.Server.Machine.C145_late_acknowledgement",
    "FreeCoAP.Server.Machine.C145_zero"
   ],
   "note": "Refinement of the server to the machine of SpecMachine by induction over the history, for the requests given to the application, the datagrams sent and the timers started. The limit on clients is part of the statement; that it is needed is proved in C143. Nothing fails in the server (for failures see C20, C87 and C95), and the application answers at once, without the blockwise transfers of the library (for those see C124-C128). C145_late_acknowledgement is a consequence that contradicts RFC 7252 section 4.5: an acknowledgement that comes after the next request makes the server execute that request a second time when it is repeated."
  },
  {
   "property": "C146",
   "status": "proved",
   "theorems": [
    "FreeCoAP.Server.Machine.C146_machine",
    "FreeCoAP.Server.Machine.C146_crowd"
   ],
   "note": "Refinement of the server to the machine with the times of the last contacts (SpecMachine), by induction over the history. The machine is not deterministic only in the choice between clients with the same time. The times are greater than 0, as the code takes a time of 0 for no time. As in C145 nothing fails in the server. C146_crowd is a consequence: even a datagram of two bytes from a ninth address makes the server forget a client, whose repeated request is then executed again."
  },
  {
   "property": "C147",
   "status": "proved",
   "theorems": [
    "FreeCoAP.Server.Echo.C147_bounded",
    "FreeCoAP.Server.Echo.C147_silent",
    "FreeCoAP.Server.Echo.C147_reached",
    "FreeCoAP.Server.Echo.C147_dtls"
   ],
   "note": "By induction over the history, with the number of repetitions that are left as the potential. Nothing is assumed about the environment. Both bounds are reached (C147_reached). Over DTLS the same holds for records and messages (C147_dtls); the datagrams of handshakes are sent by GnuTLS, which is not modelled."
  },
  {
   "property": "C148",
   "status": "proved",
   "theorems": [
    "FreeCoAP.Client.Ends.C148_exchange",
    "FreeCoAP.Client.Ends.C148_time",
    "FreeCoAP.Client.Ends.C148_time_reached",
    "FreeCoAP.Client.Ends.C148_get",
    "FreeCoAP.Client.Ends.C148_rounds",
    "FreeCoAP.Client.Ends.C148_returns",
    "FreeCoAP.Client.Ends.C148_get_reached",
    "FreeCoAP.Client.Ends.C148_put_reached",
    "FreeCoAP.Client.Ends.C148_unstarted",
    "FreeCoAP.Client.Ends.C148_dtls",
    "FreeCoAP.Client.Ends.C148_dtls_rounds"
   ],
   "note": "By induction over what arrives and over the exchanges, without and with DTLS; nothing is assumed about server, network or failures. All bounds are reached. That the timer expires is an assumption on the system (Timed); a timer that cannot be started at the beginning is not noticed by the code, and then the call may wait for ever (C148_unstarted). Results are those where the behaviour is defined, see C71."
  },
  {
   "property": "C149",
   "status": "partial",
   "theorems": [
    "FreeCoAP.Http.C149_completed_partial",
    "FreeCoAP.Http.C149_body_partial",
    "FreeCoAP.Http.C149_exact",
    "FreeCoAP.Http.C149_never",
    "FreeCoAP.Http.C149_parts",
    "FreeCoAP.Http.C149_violated",
    "FreeCoAP.Proxy.C149_connection"
   ],
   "note": "Proved for chunked bodies and for lengths that are not negative as an int. With any other length the parser asks for more whatever follows (C149_never), so the statement for all lengths is false (C149_violated); C149_exact says for which headers it holds. The proxy never receives a request with such a length, in whatever segments it comes (C149_connection). Texts that end before the blank line after the headers are not in the statement. It is assumed that there is memory and that less than 2^63 bytes follow."
  }
 ]
}