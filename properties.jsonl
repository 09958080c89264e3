{"id": "C01", "title": "Pool buffers are exclusive", "statement": "Every buffer handed out by a pool lies wholly inside the pool's storage, starts on a buffer boundary, and does not overlap any other buffer currently handed out and not yet freed.", "quantifier": "every pool geometry and every finite history of allocate/free calls, including frees of arbitrary pointers", "why_tests_cant": "Overlap can appear only after particular interleavings of allocations and frees; a test run visits finitely many histories.", "anchors": ["lib/src/coap_mem.c:coap_mem_alloc", "lib/src/coap_mem.c:coap_mem_free", "lib/src/coap_mem.c:coap_mem_create"]}
{"id": "C02", "title": "Pool allocation fails only when it must", "statement": "An allocation returns NULL exactly when the requested length exceeds the buffer size or every buffer is currently handed out; otherwise it succeeds, so no buffer is ever lost by the allocator.", "quantifier": "every pool geometry, request length and history of allocate/free calls", "why_tests_cant": "A lost buffer shows up only after a history that loses it.", "anchors": ["lib/src/coap_mem.c:coap_mem_alloc"]}
{"id": "C03", "title": "Freeing is exact and idempotent", "statement": "Freeing a handed-out buffer makes exactly that buffer available again; freeing any other pointer, including one already freed or one not from the pool, changes nothing.", "quantifier": "every reachable pool state and every pointer value", "why_tests_cant": "The set of pointers that are not a buffer start is unbounded in practice.", "anchors": ["lib/src/coap_mem.c:coap_mem_free"]}
{"id": "C04", "title": "Pool creation is sound", "statement": "Pool creation succeeds only for a positive buffer length and a buffer count divisible by eight, and then the storage obtained is large enough for all the buffers; on failure nothing remains allocated.", "quantifier": "every pair (count, length) of size_t values and every outcome of the system allocator", "why_tests_cant": "The failing arguments are close to the limits of size_t.", "anchors": ["lib/src/coap_mem.c:coap_mem_create", "lib/src/coap_mem.c:coap_mem_all_create"]}
{"id": "C05", "title": "Message format/parse round trip", "statement": "Formatting a message and parsing the resulting bytes gives back a message with the same version, type, code, message id, token, option sequence and payload.", "quantifier": "every message satisfying the documented field limits, with any number of options of any number and length up to the protocol limits and any payload", "why_tests_cant": "The option delta/length encodings change shape at 13 and 269 and interact across options; combinations are unbounded.", "anchors": ["lib/src/coap_msg.c:coap_msg_format", "lib/src/coap_msg.c:coap_msg_parse"]}
{"id": "C06", "title": "A datagram has one meaning and a message has one encoding", "statement": "Any datagram accepted by the parser is exactly the formatting of the message it was parsed to; hence two different datagrams never parse to the same message.", "quantifier": "every byte string", "why_tests_cant": "It quantifies over all byte strings.", "anchors": ["lib/src/coap_msg.c:coap_msg_parse", "lib/src/coap_msg.c:coap_msg_format"]}
{"id": "C07", "title": "Parser accepts exactly the RFC 7252 message grammar", "statement": "The parser succeeds, given memory, exactly on the byte strings generated by an independently written grammar of CoAP messages, and the message it produces is the one the grammar assigns.", "quantifier": "every byte string", "why_tests_cant": "Both directions (no false accept, no false reject) range over all byte strings.", "anchors": ["lib/src/coap_msg.c:coap_msg_parse", "lib/src/coap_msg.c:coap_msg_parse_hdr", "lib/src/coap_msg.c:coap_msg_parse_op"]}
{"id": "C08", "title": "Parser reads only inside the datagram", "statement": "Parsing never reads memory outside the len bytes it was given.", "quantifier": "every byte string and every length", "why_tests_cant": "An over-read of a byte whose value does not matter is invisible to tests that compare results.", "anchors": ["lib/src/coap_msg.c:coap_msg_parse_ops", "lib/src/coap_msg.c:coap_msg_parse_op"]}
{"id": "C09", "title": "Formatter writes only inside the buffer", "statement": "Formatting never writes outside the len bytes of the buffer it was given.", "quantifier": "every message and every buffer length", "why_tests_cant": "The failing combinations are specific (length, remaining space) pairs.", "anchors": ["lib/src/coap_msg.c:coap_msg_format_op", "lib/src/coap_msg.c:coap_msg_format"]}
{"id": "C10", "title": "Formatter succeeds exactly when the message fits", "statement": "For a well-formed message, formatting returns the exact encoded size if this is at most the buffer length and -ENOSPC otherwise.", "quantifier": "every message and every buffer length", "why_tests_cant": "Off-by-one errors appear at a single buffer length for each option shape.", "anchors": ["lib/src/coap_msg.c:coap_msg_format"]}
{"id": "C11", "title": "Options are kept in order", "statement": "After any sequence of option additions the options are sorted by number, options with the same number keep the order in which they were added, and no option is lost, duplicated or altered.", "quantifier": "every sequence of add-option calls with any numbers and values", "why_tests_cant": "Sequences are unbounded and there are n! insertion orders.", "anchors": ["lib/src/coap_msg.c:coap_msg_op_list_add", "lib/src/coap_msg.c:coap_msg_add_op"]}
{"id": "C12", "title": "Malformed message shapes are refused both ways", "statement": "A message with code 0.00 and a token, option or payload, a non-confirmable message with code 0.00, and a reset message with a code other than 0.00 are neither formatted nor returned as successfully parsed.", "quantifier": "every message and every byte string", "why_tests_cant": "It is a universally quantified exclusion.", "anchors": ["lib/src/coap_msg.c:coap_msg_check", "lib/src/coap_msg.c:coap_msg_parse", "lib/src/coap_msg.c:coap_msg_format"]}
{"id": "C13", "title": "Messages neither leak nor double-free pool memory", "statement": "The buffers taken from the pools are at all times exactly those owned by live messages; a failed parse followed by the caller's destroy, and any destroy, returns every buffer the message held.", "quantifier": "every history of create, parse, add-option, set-payload, copy, reset and destroy on any number of messages, with allocation failing at any point", "why_tests_cant": "Leaks depend on the allocation that fails and accumulate over histories.", "anchors": ["lib/src/coap_msg.c:coap_msg_op_new", "lib/src/coap_msg.c:coap_msg_destroy", "lib/src/coap_msg.c:coap_msg_parse", "lib/src/coap_msg.c:coap_msg_copy"]}
{"id": "C14", "title": "Copying a message", "statement": "Copying into a freshly created or reset message gives a message equal to the source in every field and leaves the source unchanged.", "quantifier": "every source message", "why_tests_cant": "It must hold for any list of options and any payload.", "anchors": ["lib/src/coap_msg.c:coap_msg_copy"]}
{"id": "C15", "title": "URI path to string conversion", "statement": "The string is the Uri-Path segments in order each preceded by '/', or '/' when there is none; it is truncated to fit and NUL terminated, nothing outside the buffer is written, and the returned value is the untruncated length.", "quantifier": "every message and buffer length", "why_tests_cant": "Truncation can fall at any place of any segment.", "anchors": ["lib/src/coap_msg.c:coap_msg_uri_path_to_str"]}
{"id": "C16", "title": "Block option value round trip", "statement": "Encoding a block number, more flag and size as an option value of one to three bytes and decoding it gives back the same number, flag and size, or the encoder refuses because the number does not fit.", "quantifier": "every block number, flag, size and value length", "why_tests_cant": "The refusal boundaries are single values of a 20 bit range.", "anchors": ["lib/src/coap_msg.c:coap_msg_op_format_block_val", "lib/src/coap_msg.c:coap_msg_op_parse_block_val"]}
{"id": "C17", "title": "Unrecognised critical options are found", "statement": "The critical-option check returns 0 exactly when every option with an odd number is one the library knows, and otherwise the number of the first one that is not; likewise the unsafe-option check.", "quantifier": "every option list", "why_tests_cant": "Lists are unbounded.", "anchors": ["lib/src/coap_msg.c:coap_msg_check_critical_ops", "lib/src/coap_msg.c:coap_msg_check_unsafe_ops"]}
{"id": "C18", "title": "Field setters enforce the protocol limits", "statement": "The setters accept a type of at most 3, a code class of at most 7 and detail of at most 31, a message id of at most 65535 and a token of at most 8 bytes, refuse everything else without changing the message, and change only the field concerned.", "quantifier": "every message and every argument", "why_tests_cant": "Argument ranges are those of C integers.", "anchors": ["lib/src/coap_msg.c:coap_msg_set_type", "lib/src/coap_msg.c:coap_msg_set_code", "lib/src/coap_msg.c:coap_msg_set_msg_id", "lib/src/coap_msg.c:coap_msg_set_token", "lib/src/coap_msg.c:coap_msg_set_payload"]}
{"id": "C19", "title": "Responses are tied to their request", "statement": "Every response the server sends to a request carries the request's token and goes to the request's sender; it is an acknowledgement with the request's message id when piggybacked, a confirmable message with a fresh id when separate, and non-confirmable when the request was, whatever the application callback put in the message.", "quantifier": "every server state, request and callback behaviour", "why_tests_cant": "The application callback is arbitrary code.", "anchors": ["lib/src/coap_server.c:coap_server_exchange"]}
{"id": "C20", "title": "A retransmitted request is not executed twice", "statement": "A request with the same message id as the last request answered for that sender is not passed to the application again; if it was confirmable the stored acknowledgement or response is sent again, and if it was non-confirmable nothing is sent.", "quantifier": "every history of datagrams and timer events", "why_tests_cant": "It depends on the history between the two copies.", "anchors": ["lib/src/coap_server.c:coap_server_exchange", "lib/src/coap_server.c:coap_server_trans_match_req"]}
{"id": "C21", "title": "Every new request reaches the application exactly once", "statement": "A well-formed request without unrecognised critical options, not belonging to a block transfer in progress and whose message id differs from that of the sender's previous request, is passed to the application exactly once.", "quantifier": "every server history and every request", "why_tests_cant": "It must hold for all message ids and histories.", "anchors": ["lib/src/coap_server.c:coap_server_exchange", "lib/src/coap_server.c:coap_server_trans_create"]}
{"id": "C22", "title": "Requests with unrecognised critical options are refused", "statement": "A request with a critical option the server does not recognise is answered 4.02 Bad Option and is not passed to the application.", "quantifier": "every server state and request", "why_tests_cant": "It quantifies over all option lists and server states.", "anchors": ["lib/src/coap_server.c:coap_server_exchange", "lib/src/coap_server.c:coap_server_trans_handle_bad_option"]}
{"id": "C23", "title": "No reply storms", "statement": "The server answers a datagram with at most one reset, sends a reset only for a confirmable message and never answers a reset, a malformed non-confirmable or an acknowledgement, so that two peers cannot bounce error messages for ever.", "quantifier": "every byte string received in every server state", "why_tests_cant": "It quantifies over all byte strings and states.", "anchors": ["lib/src/coap_server.c:coap_server_trans_reject", "lib/src/coap_server.c:coap_server_trans_recv"]}
{"id": "C24", "title": "One transaction per sender, least recently used evicted", "statement": "At all times at most eight transactions exist and no two are for the same sender; when a ninth sender appears, the transaction that has been unused longest is the one discarded.", "quantifier": "every history of datagrams and timer events", "why_tests_cant": "It is an invariant of unbounded histories.", "anchors": ["lib/src/coap_server.c:coap_server_find_trans", "lib/src/coap_server.c:coap_server_find_oldest_trans", "lib/src/coap_server.c:coap_server_exchange"]}
{"id": "C25", "title": "Senders do not disturb each other", "statement": "Handling a datagram or timer of one sender leaves every other sender's transaction untouched, except for the single eviction that admits a new sender.", "quantifier": "every server state and event", "why_tests_cant": "Interference is a property of pairs of histories.", "anchors": ["lib/src/coap_server.c:coap_server_exchange", "lib/src/coap_server.c:coap_server_listen"]}
{"id": "C26", "title": "Bounded exponential retransmission by the server", "statement": "A confirmable response is transmitted at most five times, every time with the same bytes, the waiting time doubling from an initial value between two and three seconds; after the last wait the transaction is discarded; once acknowledged or reset it is not sent again.", "quantifier": "every interleaving of timer expiries and datagrams", "why_tests_cant": "It depends on schedules.", "anchors": ["lib/src/coap_server.c:coap_server_trans_update_ack_timer", "lib/src/coap_server.c:coap_server_trans_handle_ack_timeout", "lib/src/coap_server.c:coap_server_exchange"]}
{"id": "C27", "title": "Server message ids stay in range", "statement": "Every message id the server generates is at most 65535, and consecutive ids differ.", "quantifier": "every start value, number of messages and random source", "why_tests_cant": "The wrap happens after up to 65536 messages.", "anchors": ["lib/src/coap_server.c:coap_server_get_next_msg_id"]}
{"id": "C28", "title": "Blockwise download delivers the body", "statement": "A client that asks for consecutive blocks of a resource receives payloads whose concatenation is the body given by the application, the last and only the last of which is marked as having no more blocks, with every payload within the negotiated block size.", "quantifier": "every body, every block size and every number of blocks", "why_tests_cant": "Bodies and block sizes are unbounded; the boundary cases are at multiples of the block size.", "anchors": ["lib/src/coap_server.c:coap_server_trans_handle_blockwise", "lib/src/coap_server.c:coap_server_trans_handle_next_block"]}
{"id": "C29", "title": "Blockwise upload assembles the body", "statement": "The body passed to the application at the end of a blockwise upload is the concatenation of the payloads of the accepted blocks in order; a block that does not continue the sequence is answered 4.08 and a body larger than the buffer 4.13, and no byte is ever written outside the body buffer.", "quantifier": "every sequence of block requests", "why_tests_cant": "Sequences of blocks are unbounded and adversarial.", "anchors": ["lib/src/coap_server.c:coap_server_trans_handle_next_block"]}
{"id": "C30", "title": "Blockwise state is released", "statement": "A transaction holds at most one body buffer; when a blockwise transfer ends, by completion, error or destruction of the transaction, its buffer is back in the pool.", "quantifier": "every history of block requests, errors and evictions", "why_tests_cant": "Leaks accumulate over histories.", "anchors": ["lib/src/coap_server.c:coap_server_trans_clear_blockwise", "lib/src/coap_server.c:coap_server_trans_destroy", "lib/src/coap_server.c:coap_server_trans_handle_blockwise"]}
{"id": "C31", "title": "Client accepts only the matching response", "statement": "A successful exchange returns a response whose token equals the request's token and all of whose critical options are recognised (in a library built for a proxy: all of whose options are recognised or safe to forward); it is either an acknowledgement with the request's message id or a separate confirmable or non-confirmable message.", "quantifier": "every sequence of datagrams and timeouts seen by the client", "why_tests_cant": "The network is adversarial.", "anchors": ["lib/src/coap_client.c:coap_client_exchange", "lib/src/coap_client.c:coap_client_exchange_con", "lib/src/coap_client.c:coap_client_exchange_non", "lib/src/coap_client.c:coap_client_exchange_sep"]}
{"id": "C32", "title": "Bounded exponential retransmission by the client", "statement": "A confirmable request is transmitted at most five times, always with the same bytes, with the waiting time doubling from between two and three seconds; if nothing arrives the exchange fails with -ETIMEDOUT after exactly five transmissions; a non-confirmable request is transmitted once.", "quantifier": "every sequence of datagrams and timeouts", "why_tests_cant": "It depends on schedules.", "anchors": ["lib/src/coap_client.c:coap_client_update_ack_timer", "lib/src/coap_client.c:coap_client_handle_ack_timeout", "lib/src/coap_client.c:coap_client_exchange_con"]}
{"id": "C33", "title": "Separate confirmable responses are acknowledged", "statement": "When an exchange succeeds with a separate confirmable response, the client has sent an empty acknowledgement carrying that response's message id; it sends no acknowledgement otherwise.", "quantifier": "every sequence of datagrams and timeouts", "why_tests_cant": "It quantifies over traces.", "anchors": ["lib/src/coap_client.c:coap_client_handle_sep_response", "lib/src/coap_client.c:coap_client_send_ack"]}
{"id": "C34", "title": "A reset ends the exchange", "statement": "If the server resets the request the exchange fails with -ECONNRESET and nothing more is transmitted.", "quantifier": "every sequence of datagrams before and after the reset", "why_tests_cant": "It quantifies over traces.", "anchors": ["lib/src/coap_client.c:coap_client_exchange_con", "lib/src/coap_client.c:coap_client_exchange_non"]}
{"id": "C35", "title": "Client sends requests only", "statement": "An exchange with a message that is not a confirmable or non-confirmable request is refused with -EINVAL and nothing is transmitted; the message transmitted otherwise is the caller's message with only message id and token replaced.", "quantifier": "every message", "why_tests_cant": "It quantifies over all messages.", "anchors": ["lib/src/coap_client.c:coap_client_exchange"]}
{"id": "C36", "title": "Blockwise upload by the client", "statement": "The payloads of the requests sent by a successful blockwise upload, in order, concatenate to the caller's body, each byte being sent exactly once, the last request and only the last being marked final, also when the server reduces the block size.", "quantifier": "every body, block size and sequence of server answers", "why_tests_cant": "The server's answers are arbitrary.", "anchors": ["lib/src/coap_client.c:coap_client_exchange_blockwise1"]}
{"id": "C37", "title": "Blockwise download by the client", "statement": "The body returned by a successful blockwise download is the concatenation of the accepted response payloads, its returned length is their total length, and no byte outside the caller's buffer is written whatever the server sends.", "quantifier": "every sequence of server answers and buffer length", "why_tests_cant": "The server's answers are arbitrary.", "anchors": ["lib/src/coap_client.c:coap_client_exchange_blockwise2"]}
{"id": "C38", "title": "Blockwise transfer is correct end to end", "statement": "When client and server of this library perform a blockwise transfer, the body received equals the body sent, for upload and download and for every combination of the two sides' block sizes.", "quantifier": "every body and every pair of block sizes", "why_tests_cant": "Bodies and numbers of blocks are unbounded.", "anchors": ["lib/src/coap_client.c:coap_client_exchange_blockwise", "lib/src/coap_server.c:coap_server_trans_handle_next_block"]}
{"id": "C39", "title": "Percent-encoding round trip", "statement": "Percent-decoding the percent-encoding of a string gives back the string, and encoded text contains only characters allowed in the component.", "quantifier": "every string without NUL and every set of extra allowed ASCII characters other than '%'", "why_tests_cant": "It quantifies over all strings.", "anchors": ["proxy/common/src/uri.c:uri_encode_str", "proxy/common/src/uri.c:uri_decode_str"]}
{"id": "C40", "title": "URI generate/parse round trip", "statement": "Parsing the text generated for a URI gives back the same scheme, user info, host, port, path, query and fragment.", "quantifier": "every URI whose components satisfy RFC 3986", "why_tests_cant": "Delimiters of one component may occur in another.", "anchors": ["proxy/common/src/uri.c:uri_generate", "proxy/common/src/uri.c:uri_parse"]}
{"id": "C41", "title": "URI generation respects its buffer", "statement": "Generating a URI writes only inside the buffer, NUL terminates it when it has a nonzero length, and returns the length of the whole URI.", "quantifier": "every URI and buffer length", "why_tests_cant": "Truncation can fall anywhere.", "anchors": ["proxy/common/src/uri.c:uri_generate"]}
{"id": "C42", "title": "HTTP message round trip", "statement": "Parsing the text generated for an HTTP message gives back its start line, headers and body and consumes the whole text.", "quantifier": "every message with well-formed fields", "why_tests_cant": "It quantifies over all messages.", "anchors": ["proxy/common/src/http_msg.c:http_msg_generate", "proxy/common/src/http_msg.c:http_msg_parse"]}
{"id": "C43", "title": "HTTP parsing is incremental", "statement": "A parse that succeeds on some received bytes gives the same message and consumes the same number of bytes when further bytes follow, and consumes no more than the bytes received; an incomplete message is reported as such rather than as an error.", "quantifier": "every byte string without NUL and every continuation", "why_tests_cant": "The split between reads is chosen by the network.", "anchors": ["proxy/common/src/http_msg.c:http_msg_parse"]}
{"id": "C44", "title": "Chunked bodies are decoded safely", "statement": "Parsing a chunked HTTP body never reads or writes outside its buffers and yields the concatenation of the chunks.", "quantifier": "every byte string", "why_tests_cant": "The failing inputs have specially crafted chunk sizes.", "anchors": ["proxy/common/src/http_msg.c:http_msg_parse_body"]}
{"id": "C45", "title": "CoAP status maps to an HTTP status of the same kind", "statement": "Each CoAP success is mapped to a 2xx or 304 HTTP status, each client error to a 4xx and each server error to a 5xx; codes without a mapping are refused.", "quantifier": "every response code", "why_tests_cant": "It is a statement over every code.", "anchors": ["proxy/common/src/cross.c:cross_status_coap_to_http"]}
{"id": "C46", "title": "Request URI reaches the CoAP server", "statement": "The Uri-Path options produced for an HTTP request URI are the nonempty segments of its path in order and the Uri-Query options the nonempty '&'-separated parts of its query in order.", "quantifier": "every URI text", "why_tests_cant": "It quantifies over all strings.", "anchors": ["proxy/common/src/cross.c:cross_uri_http_to_coap"]}
{"id": "C47", "title": "Configuration behaves as a map", "statement": "After any sequence of settings, looking up a section and name returns the value most recently set for that pair and nothing if none was set.", "quantifier": "every sequence of settings", "why_tests_cant": "Sequences are unbounded.", "anchors": ["proxy/common/src/config.c:config_set", "proxy/common/src/config.c:config_get"]}
{"id": "C48", "title": "Configuration parsing reads only its input", "statement": "Parsing configuration text terminates without reading outside the text, and each assignment in it is applied in order under the section heading before it.", "quantifier": "every text", "why_tests_cant": "It quantifies over all texts.", "anchors": ["proxy/common/src/config.c:config_parse"]}
{"id": "C49", "title": "Data buffer is a bounded queue", "statement": "Bytes come out of the data buffer in the order they were put in, none lost or invented, the count never exceeds the size nor the size the maximum.", "quantifier": "every sequence of add, expand and consume calls", "why_tests_cant": "Sequences are unbounded.", "anchors": ["proxy/common/src/data_buf.c:data_buf_add", "proxy/common/src/data_buf.c:data_buf_consume", "proxy/common/src/data_buf.c:data_buf_expand"]}
{"id": "C50", "title": "The proxy sends the response it generated", "statement": "The bytes sent to the HTTP client are exactly the text of the response message, for responses of every length up to the maximum buffer size.", "quantifier": "every response message", "why_tests_cant": "The failing lengths are single values.", "anchors": ["proxy/http_coap/src/connection.c:connection_send", "proxy/common/src/http_msg.c:http_msg_generate"]}
{"id": "C51", "title": "Block option values are decoded as RFC 7959 says", "statement": "A Block1 or Block2 option value of 0 to 3 bytes is decoded as the unsigned integer it stands for: block number, more flag and size exponent, with exponent 7 refused; no byte outside the value is read.", "quantifier": "every option value of 0 to 3 bytes", "why_tests_cant": "There are 2^24 values, and the failing one depends on stale memory.", "anchors": ["lib/src/coap_msg.c:coap_msg_op_parse_block_val", "lib/src/coap_msg.c:coap_msg_parse_block_op"]}
{"id": "C52", "title": "Only requests reach the application", "statement": "The application's handler is called only with a request (a confirmable or non-confirmable message whose code is a method), at most once for each datagram, with the message that arrived and never because of a timer.", "quantifier": "every history of datagrams, timer expiries and failures", "why_tests_cant": "Histories are unbounded and datagrams arbitrary.", "anchors": ["lib/src/coap_server.c:coap_server_exchange", "lib/src/coap_server.c:coap_server_trans_handle_request"]}
{"id": "C53", "title": "Only confirmable responses are retransmitted", "statement": "Whatever the server sends because an acknowledgement timer expired is a confirmable message.", "quantifier": "every history of datagrams, timer expiries and failures", "why_tests_cant": "It takes a particular interleaving of two requests and a timer.", "anchors": ["lib/src/coap_server.c:coap_server_trans_handle_ack_timeout", "lib/src/coap_server.c:coap_server_trans_stop_ack_timer"]}
{"id": "C54", "title": "No datagram leads the server to undefined behaviour", "statement": "Whatever datagrams arrive, in whatever order, and whichever system calls and allocations fail, the server of an application that keeps to the interface never reads or writes outside an object and never gets stuck.", "quantifier": "every history of datagrams, timer expiries and failures, every well-behaved application", "why_tests_cant": "The datagrams come from untrusted senders; the state needed for a violation may be built by several of them.", "anchors": ["lib/src/coap_server.c:coap_server_exchange", "lib/src/coap_server.c:coap_server_trans_handle_next_block", "lib/src/coap_server.c:coap_server_trans_recv"]}
{"id": "C55", "title": "A copy of a URI is equal to it", "statement": "Copying a URI gives a URI with the same components, or reports that memory ran out; it reports that only if an allocation failed.", "quantifier": "every URI and every pattern of failing allocations", "why_tests_cant": "Which components are present and which allocations fail can be combined in many ways.", "anchors": ["proxy/common/src/uri.c:uri_copy"]}
{"id": "C56", "title": "HTTP generation respects the buffer", "statement": "Generating an HTTP message returns the length of its text, writes as much of the text as leaves room for a terminating NUL, and writes nothing behind the given length, for every length of the buffer including 0.", "quantifier": "every message and every buffer length", "why_tests_cant": "The interesting lengths are those around each of the pieces the text is put together from, and the extreme ones.", "anchors": ["proxy/common/src/http_msg.c:http_msg_generate", "proxy/common/src/util.c:util_strncat"]}
{"id": "C57", "title": "CoAP URI options survive conversion to a URI and back", "statement": "Writing the Uri-Host, Uri-Port, Uri-Path and Uri-Query options of a message as a URI and converting that URI into options gives the same options, and writing the URI never leaves the buffers.", "quantifier": "every list of options, every buffer and buffer length", "why_tests_cant": "Any byte may be a delimiter at one of the two levels of encoding; the values that break it are the rare ones.", "anchors": ["proxy/common/src/cross.c:cross_uri_coap_to_http", "proxy/common/src/cross.c:cross_uri_http_to_coap"]}
{"id": "C58", "title": "An HTTP request becomes the CoAP request it describes", "statement": "The CoAP request has the method of the HTTP request, its entity tags, its URI and its whole body (in the message or, if that is too long, for a transfer in blocks), and nothing else; a request that cannot be converted is answered with a status code.", "quantifier": "every HTTP request and every failure of an allocation", "why_tests_cant": "Requests combine methods, URIs, headers and bodies of every length without limit.", "anchors": ["proxy/common/src/cross.c:cross_req_http_to_coap", "proxy/common/src/cross.c:cross_headers_http_to_coap", "proxy/common/src/cross.c:cross_method_http_to_coap"]}
{"id": "C59", "title": "A CoAP server cannot change the structure of the HTTP response", "statement": "The HTTP response for a CoAP response has its status, entity tags and content, and a reader of the text finds exactly this message: whatever the CoAP server sends, it cannot add headers or bodies.", "quantifier": "every CoAP response and body", "why_tests_cant": "The options and the content are arbitrary bytes from the network; few of them are special.", "anchors": ["proxy/common/src/cross.c:cross_resp_coap_to_http", "proxy/common/src/cross.c:cross_headers_coap_to_http", "proxy/common/src/http_msg.c:http_msg_generate"]}
{"id": "C60", "title": "Numbers keep their value between HTTP and CoAP", "statement": "Where an option is an unsigned integer (Uri-Port, Max-Age, Accept), the number it stands for is the number in the HTTP message.", "quantifier": "every number and every option value", "why_tests_cant": "All values of up to four bytes are legal.", "anchors": ["proxy/common/src/cross.c:cross_headers_coap_to_http", "proxy/common/src/cross.c:cross_headers_http_to_coap", "proxy/common/src/cross.c:cross_uri_http_to_coap"]}
{"id": "C61", "title": "The end of every HTTP response is known", "statement": "Every HTTP response made from a CoAP response tells the length of its body, or has a status that excludes one, so that the HTTP client does not wait for more.", "quantifier": "every CoAP response and body", "why_tests_cant": "Responses with and without payload, in one message or in blocks.", "anchors": ["proxy/common/src/cross.c:cross_resp_coap_to_http", "proxy/common/src/cross.c:cross_body_coap_to_http"]}
{"id": "C62", "title": "Errors in a configuration are reported where they are", "statement": "When a configuration text is rejected as lexically or syntactically wrong, the reported line and column are those of the first token that does not belong there, and texts are rejected only if they are wrong.", "quantifier": "every configuration text", "why_tests_cant": "Comments, quotations over several lines and blank lines can be combined in any order before the error.", "anchors": ["proxy/common/src/config.c:config_parse", "proxy/common/src/config.c:config_parser_lex", "proxy/common/src/config.c:config_parser_set_token_pos"]}
{"id": "C63", "title": "The description of a configuration error fits its code", "statement": "The text for an error code of the configuration library says what the code stands for, and every other code is unknown.", "quantifier": "every integer", "why_tests_cant": "Tests compare only the codes that the library returns today; the text is looked up for any integer.", "anchors": ["proxy/common/src/config.c:config_strerr"]}
{"id": "C64", "title": "Requests are read intact from the stream", "statement": "Whatever the segments in which the bytes of well-formed HTTP requests arrive on a connection, the proxy receives exactly these requests, in order, once all their bytes have been read, and does not end the connection without a cause.", "quantifier": "every sequence of well-formed requests, every division of the stream into segments, and every sequence of calls", "why_tests_cant": "Every byte can be the end of a segment, and the buffer grows and shrinks across requests.", "anchors": ["proxy/http_coap/src/connection.c:connection_recv", "proxy/http_coap/src/connection.c:connection_exchange"]}
{"id": "C65", "title": "Every request goes to the server named in its URI", "statement": "Every HTTP request that can be converted, and whose server can be reached, is sent to the CoAP server named by the host and port of its URI, with its method, options and body, whatever requests came before on the connection.", "quantifier": "every request, every earlier state of the connection and every behaviour of the CoAP client", "why_tests_cant": "The connection to a CoAP server is kept across requests; which one is used depends on the history.", "anchors": ["proxy/http_coap/src/connection.c:connection_process", "proxy/http_coap/src/connection.c:connection_coap_client_create", "proxy/http_coap/src/connection.c:connection_coap_exchange"]}
{"id": "C66", "title": "The HTTP response is the response of the CoAP server", "statement": "The response to an HTTP request has the status, entity tags and content of the response that the CoAP server gave to this request, or reports that there was none.", "quantifier": "every request, every response and failure of the CoAP client", "why_tests_cant": "Requests and responses in one message or in blocks share one buffer; the combinations are many.", "anchors": ["proxy/http_coap/src/connection.c:connection_process", "proxy/http_coap/src/connection.c:connection_coap_exchange", "proxy/http_coap/src/connection.c:connection_gen_error_resp"]}
{"id": "C67", "title": "No HTTP request makes the proxy leave defined behaviour", "statement": "Whatever an HTTP client sends, processing the request does not use missing strings or memory outside the buffers.", "quantifier": "every request and every state of the connection", "why_tests_cant": "The fields of a request come from the network.", "anchors": ["proxy/http_coap/src/connection.c:connection_process", "proxy/http_coap/src/connection.c:connection_coap_client_create"]}
{"id": "C68", "title": "The response to a request ends the exchange", "statement": "While the client waits, a response with the token of the request and acceptable options ends the exchange and is returned, whatever was received and retransmitted before.", "quantifier": "every request, every history of datagrams, timeouts and failures before the response, and everything after it", "why_tests_cant": "The response may come at any time, piggybacked or separate, before or after acknowledgements, duplicates and stray messages.", "anchors": ["lib/src/coap_client.c:coap_client_exchange", "lib/src/coap_client.c:coap_client_exchange_con", "lib/src/coap_client.c:coap_client_exchange_non", "lib/src/coap_client.c:coap_client_exchange_sep"]}
{"id": "C69", "title": "Messages for others do not disturb an exchange", "statement": "A datagram that has nothing to do with the exchange does not change its result; a confirmable message is reset. What arrives after the exchange has no effect on it.", "quantifier": "every exchange, every place in its history and every such datagram", "why_tests_cant": "Anybody can send datagrams to the client at any time.", "anchors": ["lib/src/coap_client.c:coap_client_exchange_con", "lib/src/coap_client.c:coap_client_exchange_non", "lib/src/coap_client.c:coap_client_exchange_sep", "lib/src/coap_client.c:coap_client_reject"]}
{"id": "C70", "title": "What an exchange returns is a response", "statement": "The message returned by a successful exchange has a response code: success, client error or server error.", "quantifier": "every request and every history of datagrams, timeouts and failures", "why_tests_cant": "The code of the message that is accepted is chosen by whoever sent it.", "anchors": ["lib/src/coap_client.c:coap_client_handle_piggybacked_response", "lib/src/coap_client.c:coap_client_handle_sep_response"]}
{"id": "C71", "title": "No datagram makes the client leave defined behaviour", "statement": "Whatever arrives and whichever resources fail, an exchange and a blockwise exchange of a valid request do not read or write outside their buffers.", "quantifier": "every request with options of the lengths the library can encode, every history and every body length up to the size of the buffer", "why_tests_cant": "Datagrams come from the network; lengths and block numbers in them are arbitrary.", "anchors": ["lib/src/coap_client.c:coap_client_exchange", "lib/src/coap_client.c:coap_client_exchange_blockwise", "lib/src/coap_client.c:coap_client_recv", "lib/src/coap_mem.c:coap_msg_parse"]}
{"id": "C72", "title": "Every confirmable message the client receives is answered", "statement": "While an exchange waits, a confirmable message that arrives is acknowledged if it is accepted as the response and reset otherwise, also if it is malformed; nothing is sent for other datagrams.", "quantifier": "every request, every history before the datagram and every datagram", "why_tests_cant": "Datagrams are arbitrary bytes and arrive at any time of the exchange.", "anchors": ["lib/src/coap_client.c:coap_client_recv", "lib/src/coap_client.c:coap_client_handle_format_error", "lib/src/coap_client.c:coap_client_reject", "lib/src/coap_client.c:coap_client_send_ack"]}
{"id": "C73", "title": "A blockwise transfer ends with the first response that is no confirmation", "statement": "A blockwise transfer goes on exactly as long as each response confirms or carries the block in its turn. An error response to any block ends it and is returned to the caller; a failed exchange, a response for another block and a full buffer end it with an error.", "quantifier": "every request, body, buffer, block size, and every course of every round, also those that fail", "why_tests_cant": "The outcomes of the rounds combine in unboundedly many ways.", "anchors": ["lib/src/coap_client.c:coap_client_exchange_blockwise", "lib/src/coap_client.c:coap_client_exchange_blockwise1", "lib/src/coap_client.c:coap_client_exchange_blockwise2"]}
{"id": "C74", "title": "What the HTTP parser accepts is an HTTP message", "statement": "A text is accepted only if it begins with a start line of three nonempty fields, headers that each have a colon, and a body that ends where the headers say; the fields, headers and body returned are exactly these parts of the text and the length returned is theirs.", "quantifier": "every text without NUL shorter than 2^31 bytes", "why_tests_cant": "Texts come from the network; every sequence of bytes can be one.", "anchors": ["proxy/common/src/http_msg.c:http_msg_parse", "proxy/common/src/http_msg.c:http_msg_parse_headers", "proxy/common/src/http_msg.c:http_msg_parse_start", "proxy/common/src/http_msg.c:http_msg_parse_body"]}
{"id": "C75", "title": "Chunks are generated within their buffers", "statement": "The functions that generate a chunk, the last chunk, a trailer and the blank line return the length of their text and write as much of it as leaves room for a NUL, for every length of the buffer, and nothing behind that length.", "quantifier": "every buffer, every length and every data, name and value", "why_tests_cant": "The border cases depend on the number of digits of the size and on the length of the buffer.", "anchors": ["proxy/common/src/http_msg.c:http_msg_generate_chunk", "proxy/common/src/http_msg.c:http_msg_generate_last_chunk", "proxy/common/src/http_msg.c:http_msg_generate_trailer", "proxy/common/src/http_msg.c:http_msg_generate_blank_line"]}
{"id": "C76", "title": "A body generated in chunks is read back", "statement": "A message whose header says that its body is chunked, followed by its body in nonempty chunks, the last chunk, trailers and a blank line, all generated by the library, is parsed with the same start line, the headers followed by the trailers, and the whole body.", "quantifier": "every message, every division of the body into chunks, every list of trailers and whatever follows", "why_tests_cant": "The number and the sizes of the chunks are unbounded.", "anchors": ["proxy/common/src/http_msg.c:http_msg_generate_chunk", "proxy/common/src/http_msg.c:http_msg_generate_last_chunk", "proxy/common/src/http_msg.c:http_msg_generate_trailer", "proxy/common/src/http_msg.c:http_msg_generate_blank_line", "proxy/common/src/http_msg.c:http_msg_generate", "proxy/common/src/http_msg.c:http_msg_parse"]}
{"id": "C77", "title": "Requests on a connection are answered once, in order", "statement": "Requests that an HTTP client sends on one connection are processed one by one in the order in which they were sent, and each gets exactly one complete response, which is written before the next request is looked at.", "quantifier": "every sequence of requests, every segmentation of the stream, every behaviour of the CoAP servers and of the sockets", "why_tests_cant": "Histories of requests, segmentations and failures combine without bound.", "anchors": ["proxy/http_coap/src/connection.c:connection_exchange", "proxy/http_coap/src/connection.c:__connection_exchange", "proxy/http_coap/src/connection.c:connection_thread_func", "proxy/http_coap/src/connection.c:connection_new"]}
{"id": "C78", "title": "One HTTP message is at most one request", "statement": "The text of one HTTP message causes at most one transaction: no part of the body of a request is taken for another request.", "quantifier": "every message, every segmentation of the stream and every behaviour of the environment", "why_tests_cant": "The bytes of a body are arbitrary.", "anchors": ["proxy/http_coap/src/connection.c:connection_exchange", "proxy/http_coap/src/connection.c:connection_recv", "proxy/common/src/http_msg.c:http_msg_parse_body"]}
{"id": "C79", "title": "A TLS session stored by the server is found again", "statement": "After any sequence of calls that store and delete sessions, a lookup of a session identifier returns exactly the data stored last under it, provided it was not deleted since and fewer sessions than the cache has places were stored since; otherwise it returns nothing. No call accesses memory outside the cache.", "quantifier": "every history of calls, every identifier and data, every size of the cache, every failure of the lock", "why_tests_cant": "The result depends on the whole history of calls.", "anchors": ["proxy/common/src/tls.c:tls_server_set", "proxy/common/src/tls.c:tls_server_get", "proxy/common/src/tls.c:tls_server_delete", "proxy/common/src/tls.c:tls_server_cache_set", "proxy/common/src/tls.c:tls_server_cache_get", "proxy/common/src/tls.c:tls_server_cache_delete"]}
{"id": "C80", "title": "A TLS session stored by the client is found again", "statement": "After any sequence of calls that store sessions, a lookup of the address of a server returns nothing or the data stored last for that address. The cache holds the addresses first stored most recently, so that with at most as many addresses as places nothing is forgotten. No call accesses memory outside the cache.", "quantifier": "every history of calls, every address and data, every size of the cache", "why_tests_cant": "The result depends on the whole history of calls.", "anchors": ["proxy/common/src/tls.c:tls_client_set", "proxy/common/src/tls.c:tls_client_get", "proxy/common/src/tls.c:tls_client_cache_set", "proxy/common/src/tls.c:tls_client_cache_get", "proxy/common/src/util.c:util_strncpy"]}
{"id": "C81", "title": "Session data are not changed while they are used", "statement": "The data that a thread gets from the client's session cache are data that were stored for the address, whatever other threads store before it has finished using them.", "quantifier": "every history of calls before the lookup and every sequence of calls of other threads between the lookup and the use", "why_tests_cant": "Depends on how threads interleave.", "anchors": ["proxy/common/src/tls.c:tls_client_get", "proxy/common/src/tls.c:tls_client_cache_get", "proxy/common/src/tls_sock.c:tls_sock_open_"]}
{"id": "C82", "title": "Clients and servers release what they acquire", "statement": "Creating a CoAP client or server either succeeds or releases everything it has acquired, whichever call of the operating system or of GnuTLS fails; destroying it releases the rest. In its whole life, with whatever transactions come and go, no descriptor or GnuTLS object is used that does not exist, released twice, or released while another object refers to it.", "quantifier": "every sequence of results of the system and library calls, every list of addresses, every sequence of creations and destructions of transactions, any other objects of the process", "why_tests_cant": "The failures of calls combine without bound, and most of them cannot be provoked in a test.", "anchors": ["lib/src/coap_client.c:coap_client_create", "lib/src/coap_client.c:coap_client_destroy", "lib/src/coap_client.c:coap_client_dtls_create", "lib/src/coap_server.c:coap_server_create", "lib/src/coap_server.c:coap_server_destroy", "lib/src/coap_server.c:coap_server_trans_create", "lib/src/coap_server.c:coap_server_trans_destroy", "lib/src/coap_server.c:coap_server_dtls_create"]}
{"id": "C83", "title": "The threads of the proxy release what they acquire", "statement": "However many connections are accepted, served and closed, in whatever order the listener and the connections run, and whichever system or library call fails: no descriptor, memory block, lock or GnuTLS object is used that does not exist, released twice, or released while another object refers to it; when no connection is open the proxy holds exactly what it held before the first one; and when the listener has ended nothing of it is left.", "quantifier": "every schedule of the threads, every number of connections and requests, every sequence of results of the system and library calls, any other objects of the process", "why_tests_cant": "Depends on how threads interleave, and leaks show only after many connections.", "anchors": ["proxy/http_coap/src/listener.c:listener_thread_func", "proxy/http_coap/src/listener.c:listener_new", "proxy/http_coap/src/listener.c:listener_delete", "proxy/http_coap/src/connection.c:connection_thread_func", "proxy/http_coap/src/connection.c:connection_new", "proxy/http_coap/src/connection.c:connection_delete", "proxy/common/src/tls_sock.c:tls_ssock_accept", "proxy/common/src/tls_sock.c:tls_sock_open_", "proxy/common/src/tls_sock.c:tls_sock_close", "proxy/common/src/tls.c:tls_server_create", "proxy/common/src/tls.c:tls_client_create", "proxy/common/src/thread.c:thread_ctx_create"]}
{"id": "C84", "title": "An established session is with an authenticated peer", "statement": "Whenever a client, a server that asks for certificates of clients, or the proxy has a session with a peer, the handshake has succeeded and afterwards the certificate of the peer has been found to be signed by a trusted authority, to be valid at the time and, on the client's side, to belong to the host that was asked for.", "quantifier": "every sequence of results of the system and library calls, every list of addresses, every history of transactions", "why_tests_cant": "A check that is skipped on one of many paths does not show in a test in which peers are honest.", "anchors": ["lib/src/coap_client.c:coap_client_dtls_create", "lib/src/coap_client.c:coap_client_dtls_verify_peer_cert", "lib/src/coap_server.c:coap_server_trans_dtls_create", "lib/src/coap_server.c:coap_server_trans_dtls_verify_peer_cert", "proxy/common/src/tls_sock.c:tls_sock_open_", "proxy/common/src/tls_sock.c:tls_ssock_accept", "proxy/http_coap/src/connection.c:connection_coap_client_create"]}
{"id": "C85", "title": "Parameters outlive the credentials that refer to them", "statement": "Diffie-Hellman parameters are not destroyed before the credentials they were attached to, as the manual of GnuTLS demands, whether a creation succeeds or fails.", "quantifier": "every sequence of results of the system and library calls", "why_tests_cant": "Whether memory is touched after it has been freed depends on the version of GnuTLS, and some paths are taken on rare failures only.", "anchors": ["lib/src/coap_server.c:coap_server_dtls_create", "lib/src/coap_server.c:coap_server_dtls_destroy", "lib/src/coap_client.c:coap_client_dtls_create", "proxy/common/src/tls.c:tls_server_destroy", "proxy/common/src/tls.c:tls_client_destroy", "proxy/common/src/tls.c:tls_server_create"]}
{"id": "C86", "title": "The proxy starts and stops without leaving anything", "statement": "If the proxy fails to start, everything acquired has been released. When it is stopped, no thread uses an object that has been destroyed, and in the end everything is released.", "quantifier": "every sequence of results of the system and library calls, every schedule of the threads, every moment at which the proxy is stopped", "why_tests_cant": "The moment of the stop relative to the threads is arbitrary.", "anchors": ["proxy/http_coap/src/proxy.c:main", "proxy/common/src/tls.c:tls_init", "proxy/common/src/tls.c:tls_deinit", "proxy/http_coap/src/connection.c:connection_init", "proxy/http_coap/src/listener.c:listener_run"]}
{"id": "C87", "title": "A request is executed once and the client receives its answer", "statement": "A client of the library sends a request to a server of the library over a network that loses, repeats, delays and reorders datagrams. If the exchange succeeds, the application of the server has been called for this client exactly once, with exactly this request (code, options, payload), and the response returned has the code, the options and the payload of the application's answer.", "quantifier": "every history of the server with any number of other clients, every network, every request, every application that answers without blockwise transfers", "why_tests_cant": "Tests of client and server over a loopback network do not lose, repeat or reorder.", "anchors": ["lib/src/coap_client.c:coap_client_exchange", "lib/src/coap_server.c:coap_server_exchange", "lib/src/coap_mem.c:coap_msg_parse", "lib/src/coap_mem.c:coap_msg_format"]}
{"id": "C88", "title": "The proxy runs with the parameters in its configuration file", "statement": "When the parameters have been read, the whole file is a configuration, and the port, the log level and the names of the key, certificate and trust files are the values set last in their sections, or the documented defaults. Every file that is a configuration with an existing log level is accepted. Whatever the file, reading it is safe, and if it fails nothing is left allocated.", "quantifier": "every file, every failure of an allocation or of reading", "why_tests_cant": "Files are arbitrary texts, and failures of allocation do not happen in tests.", "anchors": ["proxy/http_coap/src/param.c:param_create", "proxy/http_coap/src/param.c:param_parse", "proxy/http_coap/src/param.c:param_destroy", "proxy/common/src/util.c:util_load_txt_file", "proxy/common/src/config.c:config_parse"]}
{"id": "C89", "title": "Log messages are filtered by their severity", "statement": "A message is printed exactly when its severity is not below the level set last (the lowest one, errors only, if none was set or the value is no level). Errors are always printed. A proxy prints the messages of the level named in its configuration file and of higher severity.", "quantifier": "every sequence of settings and messages, every configuration file", "why_tests_cant": "Ranges over histories.", "anchors": ["lib/src/coap_log.c:coap_log_set_level", "lib/src/coap_log.c:coap_log_error", "lib/src/coap_log.c:coap_log_debug", "proxy/http_coap/src/param.c:param_parse_log_level", "proxy/http_coap/src/proxy.c:main"]}
{"id": "C90", "title": "A success that the proxy reports was executed by the CoAP server", "statement": "If the proxy answers an HTTP request (with a body of at most 1024 bytes, to an application that does not use blocks) with a success status, then it sent one CoAP request to the server named in the URI, the application of this server was called once for it, with the method, the options and the body of the HTTP request, and the HTTP response has the status, the entity tags and the content of the application's answer.", "quantifier": "every HTTP request, every application, every behaviour of the network (loss, repetition, delay, reordering) and every history of the CoAP server", "why_tests_cant": "Ranges over all histories of two programs and the network between them.", "anchors": ["proxy/http_coap/src/connection.c:connection_process", "proxy/http_coap/src/connection.c:connection_coap_exchange", "proxy/common/src/cross.c:cross_req_http_to_coap", "proxy/common/src/cross.c:cross_resp_coap_to_http", "lib/src/coap_client.c:coap_client_exchange", "lib/src/coap_server.c:coap_server_run"]}
{"id": "C91", "title": "The registrar behaves as a map from ids to addresses", "statement": "Whatever the sequence of calls that register, find and delete clients, the registrar behaves as a map from ids to addresses: find returns the address that was registered last for an id that was not deleted since, registering tells new ids from known ones, no call uses memory that was freed, and destroying the registrar frees all its memory.", "quantifier": "every sequence of calls, every id and address, every behaviour of malloc", "why_tests_cant": "Ranges over all sequences of calls and all layouts of the memory; a dangling pointer may go unnoticed in a test.", "anchors": ["sample/reg_server/registrar.c:registrar_add", "sample/reg_server/registrar.c:registrar_find", "sample/reg_server/registrar.c:registrar_del", "sample/reg_server/registrar.c:registrar_destroy"]}
{"id": "C92", "title": "A client that was told that it is registered is known to the registration server", "statement": "If the registration client reports success for an id, and nobody registers the same id from another address, then the registrar of the registration server returns the address of this client for the id, at the end of the exchange and at any time later.", "quantifier": "every id, every history of the server with any number of other clients, every behaviour of the network (loss, repetition, delay, reordering), every failure of memory and system calls", "why_tests_cant": "Ranges over all histories of two programs and the network between them.", "anchors": ["sample/reg_client/reg_client.c:reg_client_register", "sample/reg_server/reg_server.c:reg_server_handle", "sample/reg_server/registrar.c:registrar_add", "lib/src/coap_client.c:coap_client_exchange", "lib/src/coap_server.c:coap_server_run"]}
{"id": "C93", "title": "A file that was transferred is saved by the transfer server", "statement": "If the transfer client reports success for a file, the transfer server has written its file with exactly the contents of the file of the client.", "quantifier": "every file, every history of the server with any number of other clients, every behaviour of the network (loss, repetition, delay, reordering), every failure of memory and system calls", "why_tests_cant": "Ranges over all histories of two programs and the network between them.", "anchors": ["sample/transfer_client/transfer_client.c:transfer_client_execute", "sample/transfer_server/transfer_server.c:transfer_server_handle", "sample/transfer_server/transfer_server.c:transfer_server_handle_rx", "lib/src/coap_client.c:coap_client_exchange_blockwise", "lib/src/coap_server.c:coap_server_trans_handle_blockwise"]}
{"id": "C94", "title": "The time that the time client reports is the one of the time server", "statement": "Asking for the time does nothing undefined whatever the response is. If it succeeds, the buffer of the caller holds, with its terminator, the line of text that the clock of the server gave when the server was called with this request, and nothing outside the buffer is written.", "quantifier": "every size of the buffer, every clock, every history of the server with any number of other clients, every behaviour of the network (loss, repetition, delay, reordering), every failure of memory", "why_tests_cant": "Ranges over all histories of two programs and the network between them.", "anchors": ["sample/time_client/time_client.c:time_client_get_time", "sample/time_server/time_server.c:time_server_handle", "sample/time_server/time_server.c:time_server_handle_time", "lib/src/coap_client.c:coap_client_exchange"]}
{"id": "C95", "title": "A request that has arrived is received", "statement": "A well-formed HTTP request of up to 32641 bytes that has arrived completely over TLS, in whatever records, at a connection that waits for it, is received by the proxy; the connection does not time out.", "quantifier": "every well-formed request, every way to split it into TLS records", "why_tests_cant": "Depends on how the sender splits the stream into records and on what the TLS library keeps between reads.", "anchors": ["proxy/http_coap/src/connection.c:connection_recv", "proxy/common/src/tls_sock.c:tls_sock_read", "proxy/common/src/data_buf.c:data_buf_expand"]}
{"id": "C96", "title": "Reading and writing on a TLS socket lose nothing", "statement": "Whatever sequence of read, write, full-read, full-write and renegotiation calls an application makes on a TLS socket, and however the library and the network interleave, no call has undefined behaviour, the bytes given to the application followed by the bytes still to be read are exactly the peer's stream, and the bytes sent are exactly the bytes the application was told were sent.", "quantifier": "every history of calls, every sequence of results of the TLS library and of select", "why_tests_cant": "Retries, interruptions, renegotiations and short reads can occur at any point and in any order.", "anchors": ["proxy/common/src/tls_sock.c:tls_sock_read", "proxy/common/src/tls_sock.c:tls_sock_read_full", "proxy/common/src/tls_sock.c:tls_sock_write", "proxy/common/src/tls_sock.c:tls_sock_write_full", "proxy/common/src/tls_sock.c:tls_sock_rehandshake"]}
{"id": "C97", "title": "A call on a TLS socket does not wait for longer than its timeout", "statement": "A handshake, read or write on a TLS socket with a timeout waits for no longer than that timeout, whatever the peer does.", "quantifier": "every call, every sequence of results of the TLS library and of select", "why_tests_cant": "Depends on how the peer spaces its data and on when it asks for renegotiation.", "anchors": ["proxy/common/src/tls_sock.c:tls_sock_handshake", "proxy/common/src/tls_sock.c:tls_sock_read", "proxy/common/src/tls_sock.c:tls_sock_read_full", "proxy/common/src/tls_sock.c:tls_sock_write", "proxy/common/src/tls_sock.c:tls_sock_write_full"]}
{"id": "C98", "title": "Over DTLS the server treats the records of its sessions as it treats datagrams without DTLS", "statement": "Every history of a server over DTLS has the same application calls, messages, timers and states as a history of a server without DTLS, in which the datagrams are the records that the TLS library delivers for the session of their sender; so everything that holds of every history of the server holds over DTLS.", "quantifier": "every history of arrivals, timers and failures, every behaviour of the TLS library", "why_tests_cant": "Sessions, handshakes and failures can be interleaved in any way.", "anchors": ["lib/src/coap_server.c:coap_server_exchange", "lib/src/coap_server.c:coap_server_trans_recv", "lib/src/coap_server.c:coap_server_trans_create", "lib/src/coap_server.c:coap_server_run"]}
{"id": "C99", "title": "A datagram reaches the DTLS session of its sender and no other", "statement": "Of the datagrams that arrive at a server over DTLS, each is given once and in order to the session of its sender or is still waiting; none is lost, repeated or given to another session, and everything a session sends goes to its client.", "quantifier": "every history, every behaviour of the TLS library, every interleaving of the datagrams of all clients", "why_tests_cant": "All clients share one socket and the library may read at any time.", "anchors": ["lib/src/coap_server.c:coap_server_trans_dtls_pull_func", "lib/src/coap_server.c:coap_server_trans_dtls_pull_timeout_func", "lib/src/coap_server.c:coap_server_trans_dtls_push_func", "lib/src/coap_server.c:coap_server_accept"]}
{"id": "C100", "title": "Only clients that have completed a DTLS handshake are served", "statement": "While a server over DTLS has no session with a client it neither calls the application nor sends a message nor starts a timer for that client; it does so only after a handshake with that client has succeeded and, when clients are authenticated, its certificate was accepted.", "quantifier": "every history, every client, every behaviour of the TLS library", "why_tests_cant": "An unauthenticated request must not be served in any history.", "anchors": ["lib/src/coap_server.c:coap_server_trans_dtls_create", "lib/src/coap_server.c:coap_server_trans_dtls_handshake", "lib/src/coap_server.c:coap_server_trans_create", "lib/src/coap_server.c:coap_server_exchange"]}
{"id": "C101", "title": "A datagram does not end the DTLS sessions of other clients", "statement": "When the server looks at a datagram of one sender, the sessions of all other clients stay as they are.", "quantifier": "every reachable state, every datagram, every behaviour of the TLS library", "why_tests_cant": "Needs states in which all places for sessions are taken, in every order of use.", "anchors": ["lib/src/coap_server.c:coap_server_exchange", "lib/src/coap_server.c:coap_server_find_oldest_trans", "lib/src/coap_server.c:coap_server_trans_destroy"]}
{"id": "C102", "title": "A DTLS session of the server works as if its client had the socket for itself", "statement": "The functions through which the TLS library receives give it the next datagram of the session's client, report that there is none only when there is none, and fail when and only when a system call fails, with its error; so a client completes its handshake whatever other senders send.", "quantifier": "every content of the queue of the socket, every history", "why_tests_cant": "Depends on how the datagrams of several senders are interleaved.", "anchors": ["lib/src/coap_server.c:coap_server_trans_dtls_pull_func", "lib/src/coap_server.c:coap_server_trans_dtls_pull_timeout_func", "lib/src/coap_server.c:coap_server_trans_dtls_listen_timeout", "lib/src/coap_server.c:coap_server_trans_dtls_handshake"]}
{"id": "C103", "title": "Over DTLS the client treats the records of its session as it treats datagrams without DTLS", "statement": "Every exchange of a client over DTLS sends the same messages, starts the same timers and returns the same result as an exchange without DTLS in which the datagrams received are the records that the TLS library delivers; so everything that holds of every exchange holds over DTLS.", "quantifier": "every request, every sequence of arrivals, timers and failures, every behaviour of the TLS library", "why_tests_cant": "The library may read, write and fail in any way during each call.", "anchors": ["lib/src/coap_client.c:coap_client_recv", "lib/src/coap_client.c:coap_client_exchange", "lib/src/coap_client.c:coap_client_listen_ack", "lib/src/coap_client.c:coap_client_listen_resp"]}
{"id": "C104", "title": "A message that has arrived over DTLS is received by the client", "statement": "When no datagram waits in its socket, a client over DTLS has been given every record that has arrived, in order and once; so an exchange whose response has arrived in time returns it, however the server puts records into datagrams.", "quantifier": "every sequence of datagrams with any number of records each, every moment at which the timer expires", "why_tests_cant": "Tests use servers that send one record in a datagram.", "anchors": ["lib/src/coap_client.c:coap_client_listen_ack", "lib/src/coap_client.c:coap_client_listen_resp", "lib/src/coap_client.c:coap_client_recv", "lib/src/coap_client.c:coap_client_dtls_pull_func"]}
{"id": "C105", "title": "The functions through which the TLS library uses the client's socket do what it expects", "statement": "The function that receives gives the next datagram or reports that there is none; the function that waits returns a positive number if there is a datagram and 0 only if there is none; both fail when and only when a system call fails, with its error.", "quantifier": "every content of the queue of the socket, every arrival during the calls", "why_tests_cant": "Depends on the contents and timing of datagrams.", "anchors": ["lib/src/coap_client.c:coap_client_dtls_pull_func", "lib/src/coap_client.c:coap_client_dtls_pull_timeout_func", "lib/src/coap_client.c:coap_client_dtls_listen_timeout", "lib/src/coap_client.c:coap_client_dtls_handshake"]}
{"id": "C106", "title": "A client over DTLS is created only after a handshake and with an accepted certificate", "statement": "Creating a client over DTLS succeeds only if one of at most 60 attempts of the handshake succeeded and the certificate of the server was accepted.", "quantifier": "every behaviour of the TLS library and the network", "why_tests_cant": "Handshakes can go wrong in any way and at any attempt.", "anchors": ["lib/src/coap_client.c:coap_client_dtls_create", "lib/src/coap_client.c:coap_client_dtls_handshake", "lib/src/coap_client.c:coap_client_create"]}
{"id": "C107", "title": "A message that has arrived over DTLS is received by the server", "statement": "When no datagram waits in its socket, a server over DTLS has been given every record that its clients have sent and that has arrived, in order, once and with the right sender; so a request that has arrived is answered, however the client puts records into datagrams.", "quantifier": "every sequence of datagrams of any number of clients with any number of records each", "why_tests_cant": "Tests use clients that send one record in a datagram.", "anchors": ["lib/src/coap_server.c:coap_server_listen", "lib/src/coap_server.c:coap_server_exchange", "lib/src/coap_server.c:coap_server_trans_recv", "lib/src/coap_server.c:coap_server_trans_dtls_pull_func"]}
{"id": "C108", "title": "Threads that use the memory pools never have the same buffer", "statement": "When several threads of a program allocate and free buffers of the memory pools, as the connection threads of the proxy do, no two of them ever have overlapping buffers, no buffer is lost, and the pool's own data are only accessed inside their bounds.", "quantifier": "every number of threads and every interleaving of the memory accesses of their calls", "why_tests_cant": "The interleavings that matter are rare and cannot be forced in a test.", "anchors": ["lib/src/coap_mem.c:coap_mem_alloc", "lib/src/coap_mem.c:coap_mem_free", "proxy/http_coap/src/listener.c:listener_thread_func", "proxy/http_coap/src/connection.c:connection_thread_func"]}
{"id": "C109", "title": "Over a network that delivers, the client gets the application's answer", "statement": "When the client waits for the response to a request, a copy of the request reaches a server of the library, and what the server sends for it reaches the client, then the application is called with exactly this request and the client's exchange returns the application's answer; if the response is lost at first, the next copy of the request gives the client the same answer without another call of the application.", "quantifier": "every request and answer, every earlier history of the server with any number of clients, everything the client has received or transmitted while waiting, and every sequence of message ids and tokens", "why_tests_cant": "The client's message ids are random and the server's history is arbitrary; a test sees a few of them.", "anchors": ["lib/src/coap_client.c:coap_client_exchange", "lib/src/coap_server.c:coap_server_exchange", "lib/src/coap_server.c:coap_server_trans_match_req", "lib/src/coap_msg.c:coap_msg_gen_rand_str"]}
{"id": "C110", "title": "Over a network that delivers, a blockwise download ends with the whole body", "statement": "When the client downloads a body blockwise, and in each turn a copy of the request reaches the server and what the server sends for it reaches the client, the call goes on as long as blocks are missing and returns the whole body, with its length, after the turn of the last block; the number of turns is the length of the body divided by the smaller of the two block sizes, plus one.", "quantifier": "every body and every pair of block sizes, every earlier history of the server, everything that happens at the server between the turns with other clients, everything the client receives while waiting, and every sequence of message ids and tokens", "why_tests_cant": "The number of turns is unbounded, the ids of the requests are random and other clients are served in between; a test sees one short transfer.", "anchors": ["lib/src/coap_client.c:coap_client_exchange_blockwise", "lib/src/coap_client.c:coap_client_exchange_blockwise2", "lib/src/coap_server.c:coap_server_exchange", "lib/src/coap_server.c:coap_server_trans_handle_blockwise"]}
{"id": "C111", "title": "Over a network that delivers, a blockwise upload passes the body to the application once", "statement": "When the client uploads a body blockwise with PUT or POST, and in each turn a copy of the request reaches the server and what the server sends for it reaches the client, the call goes on as long as blocks are missing, during which the application is passed nothing; after the turn of the last block the application has been passed exactly the body, once, and the call has succeeded with the response of the application. The first block has the size the client begins with, the others the smaller of the two block sizes.", "quantifier": "every body that is not empty and fits, every pair of block sizes, every earlier history of the server, everything that happens at the server between the turns with other clients, everything the client receives while waiting, and every sequence of message ids and tokens", "why_tests_cant": "The number of turns is unbounded, the ids of the requests are random and other clients are served in between; a test sees one short transfer.", "anchors": ["lib/src/coap_client.c:coap_client_exchange_blockwise", "lib/src/coap_client.c:coap_client_exchange_blockwise1", "lib/src/coap_server.c:coap_server_exchange", "lib/src/coap_server.c:coap_server_trans_handle_blockwise"]}
{"id": "C112", "title": "Over a network that delivers, a blockwise upload that is answered with a body succeeds", "statement": "When the client uploads a body blockwise with PUT or POST, the application answers with a body of its own, and in each turn a copy of the request reaches the server and what the server sends for it reaches the client, the call goes on as long as blocks of either body are missing. The application is passed exactly the uploaded body, once, in the turn of its last block, and not again while its answer is transferred. In the last turn the call returns the length of the answer, which is at the start of the buffer, and the rest of the buffer is unchanged. The number of turns is that of the blocks of the upload plus that of the complete blocks of the answer.", "quantifier": "every body that is not empty and fits, every function from uploaded bodies to answers that are not empty and fit, every choice of the block sizes for the two directions on both sides, every earlier history of the server, everything that happens at the server between the turns with other clients, everything the client receives while waiting, and every sequence of message ids and tokens", "why_tests_cant": "The number of turns is unbounded in both directions, the ids of the requests are random and other clients are served in between; a test sees one short transfer with one pair of lengths.", "anchors": ["lib/src/coap_client.c:coap_client_exchange_blockwise", "lib/src/coap_client.c:coap_client_exchange_blockwise1", "lib/src/coap_client.c:coap_client_exchange_blockwise2", "lib/src/coap_server.c:coap_server_exchange", "lib/src/coap_server.c:coap_server_trans_handle_blockwise"]}
{"id": "C113", "title": "Every request is answered", "statement": "If the application keeps to the interface and no resource fails, every new request that reaches the server is answered: the server sends one response with the token of the request to its sender, after an acknowledgement if the response is a separate one. That holds for every method and all options, also for requests that do not fit a transfer in progress. If the application starts a transfer with a block size that does not exist or is missing, with a body larger than a buffer or without a callback for the body it asks for, the handling of the request ends with the documented error, no body is passed on and the sender is forgotten.", "quantifier": "every history of the server with every mixture of senders, transfers, faults and timers, every request and every application that keeps to the interface", "why_tests_cant": "The answer depends on the transfer the sender is in and on the state of the pool of buffers, which depend on the whole history; a test tries a few requests in a few states.", "anchors": ["lib/src/coap_server.c:coap_server_exchange", "lib/src/coap_server.c:coap_server_trans_handle_blockwise", "lib/src/coap_server.c:coap_server_trans_handle_next_block"]}
{"id": "C114", "title": "The statistics of the proxy are right under every schedule", "statement": "In a proxy built with statistics, every report in the log gives for each of the four counters the number of times it was increased before the report, modulo 2^32: no increase is lost or made twice, and the four figures belong to one moment. Each thread counts what it has logged, except that the last may still be about to be counted. When all connections have ended, the last report gives the numbers of transactions and connections that the log says succeeded and failed. No two threads use the counters at the same time, the ignored results of the lock are never errors, and no thread waits for ever.", "quantifier": "every number of connections, every outcome of their transactions, every interleaving of the steps of their threads", "why_tests_cant": "Lost updates depend on the interleaving of single accesses to memory; a test sees a few of them.", "anchors": ["proxy/http_coap/src/connection.c:stats_ok_con", "proxy/http_coap/src/connection.c:stats_log", "proxy/http_coap/src/connection.c:connection_thread_func", "proxy/common/include/lock.h:lock_get"]}
{"id": "C115", "title": "Through the proxy, an HTTP client gets the answer of the application if the network delivers", "statement": "An HTTP client asks the proxy for a coap resource. If the proxy can make the request and reach the server, a copy of the request reaches the server, what the server sends for it reaches the proxy, and nothing fails, then the application is called once with this request, and the HTTP client gets the answer of the application: its content, its entity tags, and the status that belongs to its code. On a connection with any number of requests, one after the other, each gets its own answer as one HTTP response that can be read.", "quantifier": "every HTTP request that can be converted, every state of the connection, every history of the server with any number of clients, every time that the proxy has waited, every answer of at most 64 options that fits in a datagram, every number of requests on a connection", "why_tests_cant": "It is a statement about four components and two networks; tests run each against a fixed counterpart.", "anchors": ["proxy/http_coap/src/connection.c:connection_process", "proxy/http_coap/src/connection.c:connection_coap_exchange", "proxy/http_coap/src/connection.c:connection_exchange", "proxy/common/src/cross.c:cross_resp_coap_to_http", "lib/src/coap_client.c:coap_client_exchange", "lib/src/coap_server.c:coap_server_exchange"]}
{"id": "C116", "title": "Through the proxy, an HTTP client gets a resource that the server gives in blocks as a whole", "statement": "An HTTP client asks the proxy for a coap resource that the application gives in blocks. The proxy makes an ordinary request; the response is the first block. It then goes on from this response with requests for the other blocks. If the datagrams are delivered and nothing fails, as many further requests are made as blocks are missing, and the HTTP client gets 200 with the whole body and its length, as though the application had given it in one message. On a connection such requests can be mixed with others, and each gets its own answer as one HTTP response that can be read.", "quantifier": "every HTTP request that can be converted, every body of at most 8192 bytes and every block size, every history of the server with any number of clients, every schedule in which the server remembers the proxy between the blocks, every number of requests on a connection", "why_tests_cant": "It depends on the bookkeeping of client, server and proxy together over several exchanges; the number of blocks is not bounded by a test.", "anchors": ["proxy/http_coap/src/connection.c:connection_coap_exchange", "proxy/http_coap/src/connection.c:connection_process", "lib/src/coap_client.c:coap_client_exchange_blockwise", "lib/src/coap_server.c:coap_server_exchange", "proxy/common/src/cross.c:cross_resp_coap_to_http"]}
{"id": "C117", "title": "Through the proxy, the application gets a large body of an HTTP request as a whole, and the HTTP client gets its answer", "statement": "An HTTP client sends the proxy a PUT or POST request for a coap resource with a body that is too large for one message. The proxy sends the body in blocks. If the datagrams are delivered and nothing fails, the call of the library returns when the blocks can have carried the body, and not before; the application is passed the body of the HTTP request, once and unchanged; and the HTTP client gets the answer of the application with its status. For every such body there is a course of requests with which this happens. On a connection such requests can be mixed with others, and each gets its own answer as one HTTP response that can be read.", "quantifier": "every HTTP request that can be converted, every body of 1025 to 8192 bytes and every block size of the server, every history of the server with any number of clients, every schedule in which the server remembers the proxy between the blocks, every number of requests on a connection", "why_tests_cant": "It depends on the bookkeeping of client, server and proxy together over at least 33 exchanges, with other clients in between; the number of blocks is not bounded by a test.", "anchors": ["proxy/http_coap/src/connection.c:connection_coap_exchange", "proxy/http_coap/src/connection.c:connection_process", "lib/src/coap_client.c:coap_client_exchange_blockwise", "lib/src/coap_server.c:coap_server_exchange", "proxy/common/src/cross.c:cross_req_http_to_coap", "proxy/common/src/cross.c:cross_resp_coap_to_http"]}
{"id": "C118", "title": "Through the proxy, a large body of an HTTP request is answered with the whole body of the answer", "statement": "An HTTP client sends the proxy a PUT or POST request for a coap resource with a body that is too large for one message, and the application answers it with a body, which may need several blocks, too. If the datagrams are delivered and nothing fails, the application is passed the body of the HTTP request, once and unchanged, and the HTTP client gets the status and the whole body of the answer, whatever their lengths. On a connection such requests can be mixed with others, and each gets its own answer as one HTTP response that can be read.", "quantifier": "every HTTP request that can be converted, every body of 1025 to 8192 bytes, every answer, every two block sizes of the server, every history of the server with any number of clients, every schedule in which the server remembers the proxy between the blocks, every number of requests on a connection", "why_tests_cant": "It depends on the bookkeeping of client, server and proxy together over two transfers of which one begins in the message that ends the other, and on the relation of the lengths of two bodies.", "anchors": ["proxy/http_coap/src/connection.c:connection_coap_exchange", "proxy/http_coap/src/connection.c:connection_process", "lib/src/coap_client.c:coap_client_exchange_blockwise", "lib/src/coap_server.c:coap_server_exchange", "proxy/common/src/cross.c:cross_req_http_to_coap", "proxy/common/src/cross.c:cross_resp_coap_to_http"]}
{"id": "C119", "title": "A body that is refused as too large for one message is sent in blocks by the proxy", "statement": "An HTTP client sends the proxy a PUT or POST request for a coap resource with a body that fits into one message, and the application refuses it there with 4.13 (Request Entity Too Large), because it takes bodies in blocks only. The proxy sends the body again in blocks. If the datagrams are delivered and nothing fails, the application is passed the body of the HTTP request as a whole, once and unchanged, and the HTTP client gets the answer of the application to it, with its whole body if it has one, and not the refusal. On a connection such requests can be mixed with others, and each gets its own answer as one HTTP response that can be read.", "quantifier": "every HTTP request that can be converted, every body of 1 to 1024 bytes, every answer, every two block sizes of the server, every history of the server with any number of clients before the request and between the refusal and the first block, every schedule in which the server remembers the proxy between the blocks, every number of requests on a connection", "why_tests_cant": "It depends on the state that the refused exchange leaves in the client, the server and the proxy, and on the bookkeeping of all three over two transfers, for every length.", "anchors": ["proxy/http_coap/src/connection.c:connection_coap_exchange", "proxy/http_coap/src/connection.c:connection_process", "lib/src/coap_client.c:coap_client_exchange", "lib/src/coap_client.c:coap_client_exchange_blockwise", "lib/src/coap_server.c:coap_server_exchange", "proxy/common/src/cross.c:cross_req_http_to_coap", "proxy/common/src/cross.c:cross_resp_coap_to_http"]}
{"id": "C120", "title": "Bounded string copies and appends never overrun, always terminate and report truncation", "statement": "Copying a string into a buffer with util_strncpy and appending further strings with util_strncat, each call with the length the one before returned, writes only inside the given length of the buffer, leaves there the longest prefix of the whole text that fits together with a terminating NUL, and returns the length of the whole text, so that the caller can see from it whether the text is complete; this also holds for calls after the text was truncated and for a buffer of length 0, which is not written at all.", "quantifier": "every buffer with every content, every length, every string and every sequence of appends", "why_tests_cant": "Off-by-one errors at the last byte, at exact fits and after a truncation show only for particular combinations of lengths.", "anchors": ["proxy/common/src/util.c:util_strncpy", "proxy/common/src/util.c:util_strncat"]}
{"id": "C121", "title": "A CoAP response that is lost on its way to the proxy still reaches the HTTP client", "statement": "An HTTP client makes a GET, PUT or POST request for a coap resource through the proxy. The CoAP request reaches a server of the library, the application answers it with one message, and this response is lost, any number of times. If later a copy of the request reaches the server again (for a response that comes with the acknowledgement), or the timer of the server sends a separate response again, and what the server sends then reaches the proxy, which still waits, the HTTP client gets the answer of the application, and the application is not called again for it. On a connection such requests can be mixed with others, and each is answered with one HTTP response that can be read. This holds for requests whose random id is not 0, not that of the previous request and not the one the server chooses for the response, and while the server remembers the proxy.", "quantifier": "every HTTP request that can be converted, every answer that fits into one message, every history of the server with any number of clients before the request and between the loss and the repetition, everything that the proxy's client received in the meantime, every number of requests on a connection", "why_tests_cant": "It is about the state that the server, the client of the proxy and the connection have after any history of losses and other requests.", "anchors": ["proxy/http_coap/src/connection.c:connection_coap_exchange", "proxy/http_coap/src/connection.c:connection_process", "lib/src/coap_client.c:coap_client_exchange", "lib/src/coap_server.c:coap_server_exchange", "lib/src/coap_server.c:coap_server_trans_handle_ack_timeout"]}
{"id": "C122", "title": "Over DTLS the client gets the application's answer", "statement": "A client and a server of the library have a DTLS session, and the client waits for the response to a request. When a datagram with a copy of the request reaches the server, and the records that the server sends reach the client, each in a datagram of its own and before the client's timer expires, then the application is called with exactly this request and the exchange over DTLS returns the application's answer.", "quantifier": "every request and answer, every history of the server over DTLS with any number of clients and whatever the TLS library did in it, every sequence of datagrams and timer expirations at the client before, every arrangement of the arriving datagrams", "why_tests_cant": "It joins the loops of the client and of the server over DTLS, with any history of both, with the records that the TLS library finds in datagrams.", "anchors": ["lib/src/coap_client.c:coap_client_exchange", "lib/src/coap_client.c:coap_client_recv", "lib/src/coap_server.c:coap_server_exchange", "lib/src/coap_server.c:coap_server_trans_recv", "lib/src/coap_server.c:coap_server_trans_dtls_pull_func"]}
{"id": "C123", "title": "The proxy logs the reason for which a connection fails", "statement": "When a connection of the proxy ends while a request is awaited, the message in the log gives the outcome, and for a failure its reason: the error of the wait, the text of the error of the TLS socket, the size of the request, the lack of memory, or what is wrong with the text of the request. Every status of the socket library has a text that can be used as a format, and no other status has one.", "quantifier": "every stream from the HTTP client, every division of it into reads, every failure of the wait, the read, the parser and the allocations, every status", "why_tests_cant": "A log message is only seen to be wrong if somebody knows the reason otherwise; tests do not read the log.", "anchors": ["proxy/http_coap/src/connection.c:connection_recv", "proxy/common/src/sock.c:sock_strerror", "proxy/common/src/http_msg.c:http_msg_strerror"]}
{"id": "C124", "title": "A download from any server returns one representation of the resource", "statement": "The server need not be the one of this library: it is any server that sends blocks as RFC 7959 says, in whatever sizes it likes, though not larger than asked for. When a blockwise download succeeds, the bytes returned are a whole representation of the resource; when the resource changes during the download, as its ETag tells, they are not a mixture of two. The same holds for the body that the server returns to a PUT or POST in blocks.", "quantifier": "every server that follows RFC 7959, every resource and sequence of block sizes, every sequence of losses and repetitions in each round, with and without a first response that is there already", "why_tests_cant": "It quantifies over servers with any choice of block sizes; tests have one server.", "anchors": ["lib/src/coap_client.c:coap_client_exchange_blockwise", "lib/src/coap_client.c:coap_client_exchange_blockwise2"]}
{"id": "C125", "title": "The blocks of a resource are sent as RFC 7959 says", "statement": "Once the application has answered a GET request with a body to be sent in blocks, each datagram sent to this client until the application is called again for it is an Empty message, an error response, or a block as RFC 7959 says: it has the code 2.05 and one Block2 option, whose size is at most the one chosen by the application; its payload is the part of the body that the option says; and the option says that there are more blocks exactly if there are.", "quantifier": "every history of the server, every body and block size, every sequence of requests, losses, repetitions and timeouts during the transfer", "why_tests_cant": "It quantifies over bodies, block sizes and sequences of requests; the tests run this library's client, which accepts what this library's server sends.", "anchors": ["lib/src/coap_server.c:coap_server_trans_handle_next_block", "lib/src/coap_server.c:coap_server_trans_exchange", "lib/src/coap_msg.c:coap_msg_op_format_block_val"]}
{"id": "C126", "title": "A server that follows RFC 7959 is understood", "statement": "A blockwise transfer with a server that follows RFC 7959 does not fail because the client finds a response wrong (EBADMSG). Such a server answers a request for a block with the part of the resource at the same offset, in a block of that size or a smaller one; it confirms a block of a request with the number of the block and the block size it would like from now on; and its answer to the last block has no payload, the whole answer, or the first block of the answer.", "quantifier": "every server that follows RFC 7959, every resource and request body below 16 MiB, every sequence of block sizes, losses and repetitions", "why_tests_cant": "It quantifies over all servers that follow the standard; the tests have this library's server only.", "anchors": ["lib/src/coap_client.c:coap_client_exchange_blockwise", "lib/src/coap_client.c:coap_client_exchange_blockwise1", "lib/src/coap_client.c:coap_client_exchange_blockwise2"]}
{"id": "C127", "title": "An unfinished transfer does not disturb later requests", "statement": "A client may give up a blockwise transfer at any point. A new request from it that is complete in itself (without Block options) reaches the application of the server as if the transfer had never begun.", "quantifier": "every history of datagrams, timers and faults before the request, every transfer and every point at which it is given up, every new request", "why_tests_cant": "It depends on the whole history of the sender: how far a transfer had come and what happened since; tests run transfers to their end.", "anchors": ["lib/src/coap_server.c:coap_server_trans_handle_next_block", "lib/src/coap_server.c:coap_server_exchange", "lib/src/coap_server.c:coap_server_trans_handle_blockwise"]}
{"id": "C128", "title": "The client may choose the size of the blocks", "statement": "A client that transfers a body to or from the server block by block in order may choose the size of the blocks and make it smaller at any point (RFC 7959 section 2.3). It gets the whole resource, or the application gets the whole body, whatever the sizes.", "quantifier": "every resource and body within the buffer of the server, every sequence of block sizes that does not grow, every size that the application wants, every history before and between the requests in which the server keeps the sender", "why_tests_cant": "The number of sequences of sizes and of what happens between the blocks is unbounded; the tests use blocks of one size.", "anchors": ["lib/src/coap_server.c:coap_server_trans_handle_next_block", "lib/src/coap_server.c:coap_server_trans_handle_blockwise"]}
{"id": "C129", "title": "Exactly the registered paths get separate responses", "statement": "A request gets a separate response exactly when its path was registered for it. A registration fails only when the path does not fit a buffer of the small pool or the pool has no two free buffers; it then reports ENOMEM and changes neither the registered paths nor the buffers in use. Destroying the server gives back exactly the buffers of the registered paths.", "quantifier": "every sequence of registrations, mixed with every use of the small pool by others, every size of the pool, every request", "why_tests_cant": "The contents of the list depend on the whole history of registrations and of the pool; the tests register one path.", "anchors": ["lib/src/coap_server.c:coap_server_add_sep_resp_uri_path", "lib/src/coap_server.c:coap_server_path_list_add", "lib/src/coap_server.c:coap_server_path_list_match", "lib/src/coap_server.c:coap_server_path_list_destroy", "lib/src/coap_server.c:coap_server_get_resp_type"]}
{"id": "C130", "title": "The server gives back the buffers of its messages", "statement": "After any history of datagrams, retransmissions, failures and callbacks the buffers of the small and medium pools that are in use are exactly those of the requests and responses that the server has recorded, and those of the application. No buffer is given back twice, and after the destruction of the server it has none.", "quantifier": "every history of datagrams, every sequence of calls that the callbacks make on the response, every failure of a system call or an allocation, every size of the pools", "why_tests_cant": "A buffer is lost on a single path of many, and the effect is seen only after many requests; the tests cannot reach every failing path.", "anchors": ["lib/src/coap_server.c:coap_server_exchange", "lib/src/coap_server.c:coap_server_trans_destroy", "lib/src/coap_server.c:coap_server_trans_set_req", "lib/src/coap_server.c:coap_server_trans_set_resp", "lib/src/coap_server.c:coap_server_destroy"]}
{"id": "C131", "title": "The client gives back the buffers of its messages", "statement": "After any history of calls on messages and of blockwise exchanges the buffers of the small and medium pools that are in use are exactly those of the messages of the application. No buffer is given back twice.", "quantifier": "every history of calls and exchanges, every number of blocks, every datagram that the client receives, every failure of an allocation or of another call, every size of the pools", "why_tests_cant": "A buffer is lost on a single failing path of many, and the effect is seen only after many exchanges.", "anchors": ["lib/src/coap_client.c:coap_client_exchange_blockwise", "lib/src/coap_client.c:coap_client_exchange_blockwise1", "lib/src/coap_client.c:coap_client_exchange_blockwise2"]}
{"id": "C132", "title": "A server with the pools of the samples never runs out of buffers", "statement": "With pools of the sizes that the samples use, no history of datagrams makes the server lack a buffer for a message, as long as the application makes responses of at most six options.", "quantifier": "every history of datagrams of at most 1152 bytes, every sequence of calls that the callbacks make on the response within that limit, every failure of a system call", "why_tests_cant": "The number of buffers in use depends on all the transactions at once; tests use few clients and short messages.", "anchors": ["lib/src/coap_server.c:coap_server_exchange", "lib/src/coap_server.c:coap_server_trans_set_req", "lib/src/coap_server.c:coap_server_trans_set_resp", "lib/include/coap_server.h:COAP_SERVER_NUM_TRANS", "sample/time_server/time_server.c:TIME_SERVER_SMALL_BUF_NUM"]}
{"id": "C133", "title": "How many buffers a blockwise exchange of the client needs", "statement": "A blockwise exchange of a request of k options takes at most 2(k+2) buffers of the small pool and 2(k+3) of the medium pool besides those in use before, when the responses have at most k+2 options and nothing is longer than a buffer of the medium pool. With so many buffers left no allocation in it fails, and afterwards exactly the messages of the application have buffers.", "quantifier": "every history of the application before the exchange in which nothing was refused, every request, every number of blocks, every datagram within the limits, every failure of another call", "why_tests_cant": "A test shows that some pool is large enough for some exchange, not that a pool of this size is large enough for every exchange.", "anchors": ["lib/src/coap_client.c:coap_client_exchange_blockwise", "lib/src/coap_client.c:coap_client_exchange_blockwise1", "lib/src/coap_client.c:coap_client_exchange_blockwise2"]}
{"id": "C134", "title": "The proxy uses its descriptors correctly however many clients are connected", "statement": "However many HTTP clients are connected at the same time, and in whatever order they come and go, every descriptor that the proxy puts into a descriptor set has a place in it, and no two sockets or timers of the proxy have the same descriptor.", "quantifier": "every number of clients, every interleaving of the steps of the threads, every limit of the process on open descriptors", "why_tests_cant": "It takes more than a thousand connections at the same time to reach the end of a descriptor set; tests open a few.", "anchors": ["proxy/common/src/tls_sock.c:tls_ssock_accept", "proxy/http_coap/src/listener.c:listener_thread_func", "proxy/http_coap/src/connection.c:connection_recv", "proxy/http_coap/src/connection.c:connection_delete", "lib/src/coap_client.c:coap_client_create", "lib/src/coap_client.c:coap_client_destroy", "lib/src/coap_client.c:coap_client_listen_ack"]}
{"id": "C135", "title": "A transfer in blocks over DTLS delivers exactly the body, whatever others send", "statement": "A client and a server of the library use DTLS. Others may read, change, invent, lose, repeat and delay datagrams. Then a blockwise GET that succeeds returns exactly the body that the application offers, an upload gives the application exactly the bytes of the caller and nothing else, and when the client reports success the application has received them and reported success.", "quantifier": "every body, every block size, every history of the server and of both TLS libraries in which a delivered record is one that the peer has sent, every order of system calls and failures", "why_tests_cant": "Tests run both ends over an undisturbed local socket; what holds under every interference with the datagrams cannot be sampled.", "anchors": ["lib/src/coap_client.c:coap_client_exchange_blockwise", "lib/src/coap_client.c:coap_client_exchange_blockwise1", "lib/src/coap_client.c:coap_client_exchange_blockwise2", "lib/src/coap_client.c:coap_client_recv", "lib/src/coap_server.c:coap_server_exchange", "lib/src/coap_server.c:coap_server_trans_handle_next_block"]}
{"id": "C136", "title": "A client over DTLS gives every datagram to the TLS library once and in order", "statement": "From the creation of a client that uses DTLS to its destruction, through any number of exchanges and blockwise transfers, the datagrams that arrive at its socket are given to the TLS library each once and in the order of their arrival; what one exchange has not read is read by a later one.", "quantifier": "every sequence of calls of a program, every behaviour of the TLS library, every arrival of datagrams and every failure of a system call", "why_tests_cant": "The order in which datagrams and system calls fall together differs from run to run; tests see one order.", "anchors": ["lib/src/coap_client.c:coap_client_create", "lib/src/coap_client.c:coap_client_dtls_pull_func", "lib/src/coap_client.c:coap_client_dtls_pull_timeout_func", "lib/src/coap_client.c:coap_client_exchange", "lib/src/coap_client.c:coap_client_exchange_blockwise"]}
{"id": "C137", "title": "The sample clients give back what they take", "statement": "When a call of the registration client, the time client or the file transfer client returns, with success or with an error, every buffer of the message pools, the file and the memory that it took has been given back, once.", "quantifier": "every sequence of calls of the three clients, every datagram that arrives and every failure of an allocation, of a file operation or of an exchange", "why_tests_cant": "A buffer that is not given back shows only when the pool is exhausted, after many calls; most of the error paths need a failure that tests do not provoke.", "anchors": ["sample/reg_client/reg_client.c:reg_client_register", "sample/time_client/time_client.c:time_client_get_time", "sample/transfer_client/transfer_client.c:load_file", "sample/transfer_client/transfer_client.c:transfer_client_execute"]}
{"id": "C138", "title": "The sample programs release what they take from the system", "statement": "From its start to its end, a sample program makes no call with an object that does not exist, destroys none that another one refers to, and when it ends it has released everything that it took from the operating system, the memory allocator and the TLS library, once.", "quantifier": "the six sample programs, with and without DTLS, every result of every system and library call, every sequence of clients of a server, every moment of an execution", "why_tests_cant": "There are dozens of points at which a call can fail, each with its own way back; tests run the way on which nothing fails.", "anchors": ["sample/reg_client/main.c:main", "sample/reg_client/reg_client.c:reg_client_init", "sample/time_client/main.c:main", "sample/transfer_client/main.c:main", "sample/reg_server/main.c:main", "sample/reg_server/reg_server.c:reg_server_create", "sample/reg_server/registrar.c:registrar_destroy", "sample/time_server/main.c:main", "sample/transfer_server/main.c:main", "lib/src/coap_mem.c:coap_mem_all_create", "lib/src/coap_mem.c:coap_mem_all_destroy"]}
{"id": "C139", "title": "Servers and clients stay within their descriptor sets", "statement": "Whatever descriptors an application has open besides its CoAP servers and clients, every socket and timer that the library waits for has a place in the descriptor set it waits with, and no two servers, clients or files share a descriptor.", "quantifier": "every number of servers, clients and other open files of a process, every limit of the process, every order in which they are opened, used and closed", "why_tests_cant": "The failure needs about a thousand open files; tests have a handful.", "anchors": ["lib/src/coap_server.c:coap_server_listen", "lib/src/coap_server.c:coap_server_create", "lib/src/coap_server.c:coap_server_trans_create", "lib/src/coap_client.c:coap_client_create", "lib/src/coap_client.c:coap_client_listen_ack", "lib/src/coap_client.c:coap_client_listen_resp"]}
{"id": "C140", "title": "A session of requests", "statement": "Over a network that delivers, clients that make one request after the other get each of them answered: every request is given to the application of the server once, in order, and every exchange returns what the application answered to that request.", "quantifier": "every number of clients and requests, every order of the clients, every application, every state of the pool", "why_tests_cant": "Each answer depends on what the server remembers of all the requests before; tests make a fixed sequence of requests.", "anchors": ["lib/src/coap_server.c:coap_server_exchange", "lib/src/coap_server.c:coap_server_find_trans", "lib/src/coap_client.c:coap_client_exchange"]}
{"id": "C141", "title": "A session of requests over a network that loses and repeats datagrams", "statement": "Over a network that repeats datagrams and loses responses, clients that make one request after the other and transmit again until a response arrives get each request answered: however many copies of a request arrive, it is given to the application of the server once, the requests come in order, and every exchange returns what the application answered to that request, whichever copy the response belongs to.", "quantifier": "every number of clients, requests and copies, every choice of lost responses, every order of the clients, every application, every state of the pool", "why_tests_cant": "Which copies arrive and which responses are lost differs in every run, and what the server remembers depends on all the requests before.", "anchors": ["lib/src/coap_server.c:coap_server_exchange", "lib/src/coap_server.c:coap_server_find_trans", "lib/src/coap_server.c:coap_server_trans_match_req", "lib/src/coap_client.c:coap_client_exchange", "lib/src/coap_client.c:coap_client_handle_ack_timeout"]}
{"id": "C142", "title": "A session with requests of all kinds", "statement": "Clients that make confirmable and non-confirmable requests, one after the other with distinct ids, get each of them answered, whether the response is piggybacked or separate: every request is given to the application of the server once, in order, nothing else is, and every exchange returns what the application answered. This holds whatever else than requests reaches the server in between: acknowledgements, resets, ends of timers, malformed datagrams, and failures in the server while it handles them.", "quantifier": "every number of clients and requests, every order, every sequence of other events between the requests, every application, every list of separate paths", "why_tests_cant": "What the server remembers depends on all the requests and all the other events before; tests make a fixed sequence of them.", "anchors": ["lib/src/coap_server.c:coap_server_exchange", "lib/src/coap_server.c:coap_server_find_trans", "lib/src/coap_server.c:coap_server_trans_handle_ack_timeout", "lib/src/coap_client.c:coap_client_exchange"]}
{"id": "C143", "title": "The server behaves like a simple server", "statement": "However the requests of the clients are interleaved and repeated, the server gives to the application, and sends, exactly what a server does that remembers the last request of every client and the response to it: a new request is executed and answered, a repetition is answered as before without being executed. So the application gets from each client its requests in order, once each.", "quantifier": "every sequence of requests of up to eight clients, in every order and with any repetitions, every application, every list of separate paths, every random value", "why_tests_cant": "The number of interleavings and repetitions is unbounded, and the table of transactions is shared by all clients; a test tries a few.", "anchors": ["lib/src/coap_server.c:coap_server_exchange", "lib/src/coap_server.c:coap_server_find_trans", "lib/src/coap_server.c:coap_server_find_empty_trans", "lib/src/coap_server.c:coap_server_find_oldest_trans"]}
{"id": "C144", "title": "The limits on sizes are exact", "statement": "A request that the proxy forwards without a body is forwarded with a body exactly if that has at most 8192 bytes; otherwise no CoAP server is contacted and the HTTP client gets the status 502. A CoAP response that the proxy can convert without its options is converted exactly if each of them has at most 255 bytes; otherwise the status is 502. The sample for registrations answers requests for other resources with 4.04 exactly if their path has at most 31 bytes.", "quantifier": "all requests, bodies, responses and options of any number and size, all servers and states", "why_tests_cant": "A limit that is off by one shows only for bodies, options or paths of one size, which tests would have to try for each kind of message.", "anchors": ["proxy/http_coap/src/connection.c:connection_process", "proxy/common/src/cross.c:cross_req_http_to_coap", "proxy/common/src/cross.c:cross_resp_coap_to_http", "proxy/common/src/cross.c:cross_headers_coap_to_http", "sample/reg_server/reg_server.c:reg_server_handle"]}
{"id": "C145", "title": "The server is a small machine", "statement": "For at most eight clients the server does, in every history of requests, repetitions, acknowledgements, resets, late acknowledgements, messages that are no requests and datagrams that cannot be read, exactly what a small machine does that knows of each client only the last request, the response to it, and how often that has been sent while its acknowledgement is awaited. A new request is executed once and answered; with a critical option that is not known it is not executed, and answered with 4.02 and the number of the first such option. A repeated one is answered from memory. If the application reports an error or gives a response that cannot be sent, nothing is sent but the acknowledgement that announces a separate response, and the client is forgotten. The acknowledgement or reset of the last response ends the wait for it, and any other one makes the server forget the client. A response that is not acknowledged is sent again four times, after a first timeout of 2 to 3 seconds that is doubled each time, and then the client is forgotten. What is awaited is not changed by a request whose response needs no acknowledgement. A confirmable or non-confirmable message that is no request is taken for a repetition if it has the id of the last request; otherwise the client is forgotten, and a reset is sent if the message is confirmable. A datagram that cannot be read makes the server forget the client, and is answered with a reset exactly if it has the header of a confirmable message of version 1. A client of which nothing is known is treated as one whose last request had the id 0 and was answered with an empty message.", "quantifier": "all histories of correct and incorrect messages of at most eight clients, interleaved in any way with the ends of timers, all applications that answer at once, all random numbers", "why_tests_cant": "Tests follow a few histories; what the server does depends on what all clients sent before, and on the order in which timers and messages come.", "anchors": ["lib/src/coap_server.c:coap_server_run", "lib/src/coap_server.c:coap_server_exchange", "lib/src/coap_server.c:coap_server_trans_handle_ack_timeout", "lib/src/coap_server.c:coap_server_trans_match_resp", "lib/src/coap_server.c:coap_server_trans_match_req", "lib/src/coap_server.c:coap_server_trans_reject", "lib/src/coap_msg.c:coap_msg_parse_type_msg_id"]}
{"id": "C146", "title": "The server is a small machine for any number of clients", "statement": "For any number of clients the server does, in every history of requests, repetitions, acknowledgements, resets, late acknowledgements, messages that are no requests and datagrams that cannot be read, what the machine of C145 does that can know eight clients: when a message comes from a client of which nothing is known while it knows eight others, it first forgets one of those with which there was no contact for the longest time, and in no other case does a message make it forget another client. Contact is a message from the client, or a response sent to it again.", "quantifier": "all histories of correct and incorrect messages of any number of clients, interleaved in any way with the ends of timers, at any times after the epoch, in any order, all applications that answer at once, all random numbers", "why_tests_cant": "Which client is forgotten depends on the times of all messages and timers before; tests with nine or more clients follow a few orders of them.", "anchors": ["lib/src/coap_server.c:coap_server_run", "lib/src/coap_server.c:coap_server_exchange", "lib/src/coap_server.c:coap_server_find_oldest_trans", "lib/src/coap_server.c:coap_server_find_empty_trans", "lib/src/coap_server.c:coap_server_trans_touch"]}
{"id": "C147", "title": "What the server sends to an address is bounded by what came from it", "statement": "For every datagram that came from an address the server sends at most six datagrams to it, with at most 5764 bytes together, whatever fails and whatever others send: an empty acknowledgement of 4 bytes, a response of at most 1152 bytes, and four repetitions of it. An address from which nothing came gets nothing.", "quantifier": "all histories of datagrams from any number of addresses, of timers and of failures, all applications, all addresses", "why_tests_cant": "A peer can send any datagrams in any order, with forged addresses; a test sees the answers to a few, while the bound is about the worst history.", "anchors": ["lib/src/coap_server.c:coap_server_exchange", "lib/src/coap_server.c:coap_server_trans_handle_ack_timeout", "lib/src/coap_server.c:coap_server_trans_send", "lib/src/coap_server.c:coap_server_trans_reject"]}
{"id": "C148", "title": "The calls of the client end whatever the server does", "statement": "An exchange ends at the latest when its timer expires for the fifth time, whatever arrives meanwhile; the times for which the timer is started are together less than 123 seconds, and 30 seconds if the request is not confirmable. A call that transfers bodies in blocks makes at most as many exchanges as blocks of 16 bytes fit into the buffer of the caller and one more for GET, and at most twice as many and one more for PUT and POST, however the server chooses sizes, numbers and codes; so it returns.", "quantifier": "all requests, block sizes, buffers, datagrams that arrive in any order, and failures of system calls and of the allocator", "why_tests_cant": "A server can answer every request with anything; that no sequence of answers keeps the client in its loop cannot be found by trying sequences.", "anchors": ["lib/src/coap_client.c:coap_client_exchange", "lib/src/coap_client.c:coap_client_exchange_blockwise", "lib/src/coap_client.c:coap_client_exchange_blockwise1", "lib/src/coap_client.c:coap_client_exchange_blockwise2", "lib/src/coap_client.c:coap_client_handle_ack_timeout"]}
{"id": "C149", "title": "The HTTP parser asks for more only if more can help", "statement": "If the HTTP parser asks for more data after the start line and the headers, then there is something that can follow, after which it accepts the message. A message that can never be complete is refused.", "quantifier": "all start lines and headers, all data that can follow", "why_tests_cant": "That nothing can complete a message is a claim about every possible continuation, of any length; a test can only send some.", "anchors": ["proxy/common/src/http_msg.c:http_msg_parse_body", "proxy/common/src/http_msg.c:http_msg_parse"]}
