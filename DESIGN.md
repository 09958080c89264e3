# A formal model of FreeCoAP in Lean 4

The subject is the C source in `/repo` (keith-cullen/FreeCoAP at a pinned
commit). The code is read as text only; it is never built or run here. This file
says what is modelled, how each property of `properties.jsonl` is expressed and
proved, what is trusted, and which properties the code was found to violate.

## 1. Trusted base

* Lean 4.33.0's kernel, and the axioms `propext`, `Classical.choice` and
  `Quot.sound` (each property theorem depends on a subset of these; no other
  axiom, no `sorry`, `native_decide` or `bv_decide`).
* The reading of the C code. Every model definition cites the file and lines it
  models and says where it simplifies.
* Assumptions about the platform: 8-bit bytes, 32-bit `unsigned`, `size_t` of at
  least 32 bits. Whether plain `char` is signed is a parameter of the model.

## 2. Architecture of the model

| Lean module | models |
|---|---|
| `Verif/Common.lean` | bytes, error codes, outcomes with undefined behaviour as a separate value |
| `Verif/Text.lean`, `Verif/TextProps.lean` | C strings and the character classes of the C library |
| `Verif/Mem/*` | `lib/src/coap_mem.c` |
| `Verif/Msg/{Model,Spec,Lemmas*,Props}.lean` | `lib/src/coap_msg.c`, messages as values |
| `Verif/Msg/Heap*.lean` | `lib/src/coap_msg.c`, messages as blocks of the memory pools; linked to the values by refinement |
| `Verif/Server/*` | `lib/src/coap_server.c` without DTLS; `*Dtls.lean`: the functions for DTLS, over an arbitrary TLS library |
| `Verif/Client/*` | `lib/src/coap_client.c` without DTLS; `*Dtls.lean`: the functions for DTLS, over an arbitrary TLS library |
| `Verif/DataBuf/*` | `proxy/common/src/data_buf.c` |
| `Verif/Uri/*` | `proxy/common/src/uri.c` |
| `Verif/Http/*` | `proxy/common/src/http_msg.c`, `util_strncat` |
| `Verif/Cross/*` | `proxy/common/src/cross.c`, setters of `http_msg.c` |
| `Verif/Config/*` | `proxy/common/src/config.c` |
| `Verif/Tls/*` | the session caches in `proxy/common/src/tls.c`, `util_strncpy` in `util.c` |
| `Verif/Proxy/*` | `proxy/http_coap/src/connection.c`, `tls_sock_write_full` in `tls_sock.c` |
| `Verif/Res/*` | acquisition and release of resources: `coap_client.c`, `coap_server.c` with DTLS; `tls.c`, `tls_sock.c`, `thread.c`, `lock.h`, `listener.c`, `connection.c` |
| `Verif/Param/*` | `proxy/http_coap/src/param.c`, `lib/src/coap_log.c`, `util_load_txt_file` in `util.c` |
| `Verif/Sample/*` | `sample/reg_server/registrar.c`, `sample/reg_server/reg_server.c`, `sample/reg_client/reg_client.c`, `sample/transfer_server/transfer_server.c`, `sample/transfer_client/transfer_client.c`, `sample/time_server/time_server.c`, `sample/time_client/time_client.c` |
| `Verif/Util/*` | no code of its own: the models of `util_strncpy` and `util_strncat` in `Verif/Tls` and `Verif/Http` |
| `Verif/EndToEnd/*` | no code of its own: client and server together, with a network between them |

In each directory `Model.lean` has the functions of the C file, `Spec.lean` the
independent specification, `Lemmas*.lean` the auxiliary lemmas and `Props*.lean`
the property theorems with a satisfiability `example` beside each.

Conventions: a C function that mutates through a pointer returns the new value;
a loop becomes structural recursion or recursion with a proved measure; a read
or write outside an object, a signed overflow and similar is the outcome `ub`.
What the environment decides (datagrams, clocks, random numbers, failures of
allocations and system calls, the application callback) is a parameter that the
theorems quantify over. The server and the client use messages as values, with
the failure of an allocation as an input; that ownership is respected by the
message functions is proved at the level of the heap.

## 3. Plan per property

Memory pool
* C01-C03: pool state = geometry plus the bitset as a list of bytes, as in the C
  code. Specification: the set of handed-out slots. Invariant by induction over
  an arbitrary list of calls; refinement of every call to the set.
* C04: `create` with `size_t` arithmetic modulo 2^w; the product `num * len` may
  wrap, so the property is expected to hold only without overflow.

Message codec
* C05-C07: parse and format as functions on byte lists; a grammar of CoAP
  messages as an inductive relation, independent of both; parse is proved equal
  to the grammar in both directions; round trips are corollaries.
* C08, C09, C10: reads and writes are indexed accesses to a buffer with a
  definite size and give `ub` outside it. The code is expected to violate these
  in specific cases (see section 4): negations with witnesses plus partial
  theorems with the exact side condition.
* C11: option insertion against sortedness, permutation and stability.
* C12: the check of message shapes through parse and format.
* C13: messages own pool addresses; ownership accounting over histories.
* C14, C15, C16, C17, C18: direct statements against small specifications.

Server
* C19-C27: a step function over events (datagram with source address and time,
  timer expiry) with the application callback, the random source, the socket
  results and the clock as parameters; invariants by induction over event lists.
* C28-C30: the blockwise functions as a state machine over block requests.

Client
* C31-C35: the exchange as a fold over the sequence of events the client
  observes (datagram, timeout), producing the list of messages sent.
* C36-C38: the blockwise loops against an arbitrary sequence of answers, and
  composed with the server's blockwise model. Between them is a network given by
  what it may do (`EndToEnd/Spec.lean`); invariant of the server's transfer
  with this client by induction over its events.

Proxy
* C39-C41: percent coding, URI parse and generate on byte lists.
* C42-C44: HTTP message parse and generate on byte lists.
* C45, C46: decision logic stated outright.
* C47, C48: configuration store refined to a map; lexer and parser over text.
* C49, C50: data buffer refined to a queue; the send loop.

Added while the model grew
* C51: decoding of Block options, with reads outside the value as `ub`.
* C52-C54: server: Empty messages, timers, absence of undefined behaviour.
* C55: copying of URIs with failing allocations.
* C56: the buffer of HTTP generation.
* C57: composition of C40 with the conversion of options; induction over the options for the temporary buffer.
* C58, C59, C61: induction over headers and options; C59 uses the HTTP round trip of C42.
* C60: decimal digits against integers in network byte order.
* C62: the parser invariant says that line and column are those after the text
  that was read (independently: line breaks, and width with tab stops); an error happens at the first token that
  does not continue a statement.
* C63: the table of `config_strerr` against the codes of config.h.
* C64: `recv` is driven by events (time-outs, errors, the number of bytes ready);
  invariant: buffer content ++ unread stream ++ unsent bytes = texts of the
  remaining requests. Uses the C43 theorems for complete and incomplete texts.
* C65–C67: `process` with the CoAP client, the network and the allocators as an
  environment (`World`), for every earlier state of the connection.
* C68–C71: about `exchange` after any list of inputs; C68 and C69 insert one more input
  at any place where the exchange waits. C71 goes through every function of the model.
* C73: induction over the rounds; every run of the model is one of the relations
  `Uploads`, `Downloads`, `Resumes`, `Puts`, which have one rule for each way a round can go.
* C72: the datagrams sent when one more datagram arrives, computed from its first bytes.
* C74: soundness and completeness of the HTTP parser for the set of texts
  `RawMsg.Loose`, by induction over headers and chunks.
* C75, C76: the content of the buffers in closed form; the texts together are a
  well-formed text of a message, to which the exactness of the parser applies.
* C77, C78: induction over the transactions; the loop of a connection refines the
  relation `Dialog`, in which there are neither buffers nor segments.
* C79: invariant over the calls: element `j` holds what the last call that stored into it
  left there, and the number of calls since then is less than the number of elements.
* C80, C81: the elements from the oldest one on are empty elements followed by the
  queue of the specification; the properties are then proved of the queue.
* C82: a program is a tree of calls whose branches are the results; a run is a
  list of calls with results. `Res/Spec.lean` says of each call which objects it
  needs, creates and destroys, and replays a run. Proved with a program logic in
  which a function has objects of its own beside a frame of other objects.
* C83: the threads are programs whose calls interleave in every possible way. The
  logic gives for each point of a thread the objects it owns, beside objects that
  all threads may use; the invariant is that the objects that exist are the sum.
* C84: a run in which a function succeeds is taken apart: it contains a handshake
  that succeeded and then a verification that came to the right results
  (`Res/SpecAuth.lean`), and for transactions no destruction of the session since.
* C85: the rules of C82 with one more reference, from credentials to parameters.
* C86: the start and the end of `main` as programs, composed with the runs of C83.
* C87: client and server are composed as for C38; the responses of the server to the
  token of the exchange are followed through its history, together with the calls of
  the application.
* C88: the specification of configurations of C48, and a table of sections, names and
  defaults; memory as the list of strings allocated and freed.
* C89: the log as a function from sequences of calls to messages printed.
* C90: the composition of C58, C59 and C87: the proxy with the client of the library, the
  network and the server of the library.
* C91: the registrar of the sample server as a linked list in a heap of blocks with addresses,
  where following a pointer to freed memory is undefined behaviour; an invariant relates the
  list to a map. The deletion of entries with a predecessor violates it.
* C92: the callback of the sample server and the sample client, composed with C87 and C91:
  the registrar is followed through the calls of the callback.
* C93: the callbacks of the sample transfer server and the sample transfer client, composed with
  C38. The file of the server is followed through the calls of the callback for bodies.
* C94: the callback of the sample time server and the sample time client, composed with C87. The
  clock is a list with the text of `ctime_r` at each event.
* C95: the loop that receives a request on top of the records of TLS, with the bytes that GnuTLS
  keeps between reads. `select` sees the records in the socket only. Induction over the records.
* C96, C97: the functions that read, write and renegotiate on a TLS socket, with any sequence of
  results of GnuTLS and `select`. Induction over these results and over the calls, with the
  streams of the peer and of the application and the time in `select` as part of the state.
* C98–C102: the server over DTLS. The socket is a queue of datagrams with their senders; datagrams
  may arrive and calls may fail at every system call. Each call of GnuTLS is an arbitrary program
  over the three call-back functions of the server (an inductive type of interaction trees), so
  the theorems hold for every library. C98 by simulation: every step over DTLS is a step of the
  server without DTLS in a suitable environment. C99 by induction over the library's program and
  the history. C100 and C101 from C98 and the view of one client. C102 per call-back, with two
  theorems for histories of any length that show what its violation leads to.
* C103–C106: the client over DTLS, as C98–C102 with a connected socket. C103 by simulation, for
  every outcome of an exchange. C104 with a library that keeps the records of a datagram and with
  `select` seen as a function of the socket and the timer; invariant: records given, records kept
  and records in the socket together are the records that arrived. C105 per call-back. C106 by
  induction over the attempts.
* C107: as C104 for the server, per sender. `C107_turn` ties an event of that model to the step of
  the server over DTLS.
* C108: `coap_mem_alloc` and `coap_mem_free` split into single accesses to the bitset (a read of a
  byte and its write are separate steps), any number of threads; invariant: a bit is set exactly if
  a thread has the buffer or is about to have it.
* C109: client and server together (C19, C20, C21, C68): the response to a new request is read back by
  the client (round trip of the encoding), which accepts it after any time of waiting.
* C110: induction over the turns of a download: the invariant relates the position of the client's loop
  to the state of the server's transfer (C28, C73), each turn is an exchange as in C109.
* C111: as C110 for uploads: the invariant relates the position of the client's loop to the bytes the
  server has collected (C29, C73), and the bodies passed to the application are counted over all events.
* C112: the two invariants of C111 and C110 in sequence. The turn that carries the last block of the
  upload also carries the first block of the answer; the lemma for it relates the client in its second
  loop to the server that has begun to serve the answer.
* C113: an invariant of every history, that the block sizes and the final code of each transfer in
  progress are valid, and for each outcome of the generation of a response that it is small enough to
  be sent. The refusals are read off the model for each wrong way to start a transfer.
* C114: the threads of the connections as a transition system with single reads and writes of the
  counters and a lock that may report errors; an invariant of every schedule relates the owner of the
  lock, the counters and the history. That no thread waits for ever is shown with a schedule that
  brings it out of the statistics.
* C115: C109 gives the response to the CoAP client of the proxy; its conversion succeeds, since the
  answer came in a datagram and so the HTTP text is shorter than the buffer; C77 then writes it, and
  C59 reads it back. For a connection by induction over its requests.
* C116: the ordinary request starts a transfer at the server (`serve_start_final` without a Block2
  option), and the client that already has block 0 is in the state that C110 reaches after one turn;
  the rest is the induction of C110. The conversion of the result gives an explicit HTTP response,
  whose length is computed.
* C117: the call with which the proxy sends the body is a course of C111, whose states give the last
  response with all its options; the conversion of C115 applies to it. `C111_possible` builds the
  turns of any upload by induction: the client has a next request (`C111_goes_on`), it is one that
  the server of C54 handles, and of three ids one is free.
* C118: the states of C112, in which an answer that does not fit is a state of its own, give what the
  call of the library returns; the conversion to an explicit HTTP response is the one of C116, for
  every success code and any Block options.
* C119: the refused exchange is C109; what follows it is C111 or C112 from the history that ends
  with the refused request, for a request without its payload and for any response that is in the
  client's hands. That is why the applications of C111 and C112 need to take blocks only when a request
  has a Block1 option.
* C120: exact functional description of the two loops by induction over the source string; induction
  over the appends.
* C121: C109 for a response that is lost at first (C20 for the repetition of the request, C26 for the
  timer), then as C115.
* C122: C107 and C98 for the server, C104 for the client, then as C109; the inputs of the client are
  those of the client without DTLS that gets the records of the datagrams in order.
* C123: the messages along the rounds of the model of `connection_recv` (C65), with the tables of
  `sock.c` and `http_msg.c`; by induction over the rounds.
* C124: from the relations of C73, by induction over the rounds: what is in the buffer is a prefix of
  the resource.
* C125: from C28 (every datagram of a transfer is a block of the body), by reading its Block2 option
  as RFC 7959 defines it.
* C126: from the relations of C73, by induction over the rounds: a response as RFC 7959 says is never
  in the case `wrong`.
* C127: a case analysis of the step for the next block: the transfer is over or the response is a
  success; without a call of the application no transfer begins (induction over the history).
* C128: by induction over the requests, with the step for one block of C28 and C29.
* C129: the list, its strings and the small pool, by induction over the calls; the invariant says which buffers the list holds and which C strings are in them.
* C130: the transactions with their recorded messages on the two pools; the invariant of C13 is kept by each function, for every decision of the environment, and by induction over the events.
* C131: the same for the loops of the blockwise exchange of the client, with what the local message holds when the function returns.
* C132: the invariant of C130 together with a bound on the options of every recorded message; each function needs room for four messages besides the other transactions, and with the bound none of its allocations is refused. By induction over the events.
* C133: the same for the loops of C131, with room for two messages.
* C134: a model of the descriptors that the threads of the proxy hold; a step is one system call or one descriptor set, so that histories are all interleavings. A new descriptor is the lowest free one (POSIX), hence at most the number of open ones; the bound and the distinctness are an invariant. Connections alone reach descriptor 1024 when the limit of the process allows it.
* C135: the loops of the blockwise transfers around the exchange of the client over DTLS. By induction over the rounds such a transfer is one of the client without DTLS (with C103 for each exchange); with C98 for the server, what DTLS promises becomes the `Network` of C38.
* C136: the life of a client over DTLS as a list of calls; a relation between the socket before and after, which is closed under composition, holds of every call-back and hence of every call of the library, every exchange, every transfer and every life.
* C137: the calls of the sample clients on the pools of C13 and C131, the environment deciding what arrives and what fails; an invariant over histories of calls says which buffers the messages left behind still have. The file and the memory are a trace that a small automaton replays.
* C138: the sample programs as programs that call the system, in the logic of C82; the pools and the entries of the registrar are memory that stands beside the objects of the library (frame rule).
* C139: the descriptors of a process as a table from uses to numbers (`Server.Fds`), the lowest free number is given out; invariant by induction over the steps, and a count of the uses.
* C140: client and server composed into one function (`session`); induction over the requests with C109 for one exchange, and the invariant that no blockwise transfer is in progress.
* C141: as C140 with copies of each request (`lossy`); C20 for the copies, C109 for the exchange, and the invariant of C140.
* C142: as C140 for requests of all kinds with other events in between (`mixed`); events that are not requests call no application and start no transfer, and the last request of a client is not changed by them.
* C143: `Simple` is a server with a map from clients to the last request and response. `Corr` relates it to the model of the server; every request preserves it (`one_step`). With at most eight clients no transaction is evicted (`pigeon`). `run_novel` reads off the requests of each client that are executed.
* C144: the outcome with a body, options or a path is compared with the outcome without; the conversions are followed step by step, with induction over the options.
* C145: the transaction of each client corresponds to an entry of the machine; each event is followed through `Outcome` and `TimerOutcome` (what exactly is sent for a refused datagram: LemmasOdd), and the theorem is by induction over the history.
* C146: as C145, with the time of the last contact for each client; the transaction that is given to a new client is the one with the least time.
* C147: the datagrams sent to an address and those that came from it are counted in every history of the server; by induction, with the number of repetitions that are left as the potential.
* C148: the number of expiries of the timer that are left decreases in every exchange, and every exchange of a transfer in blocks moves the offset by at least 16 bytes; by induction over what arrives and over the exchanges.
* C149: the continuations of a start line with headers; a continuation is constructed where there is one, through the exactness of the parser (C74), and for negative lengths all are shown to be answered with EAGAIN.

Not modelled: what GnuTLS does inside its calls, sockets and name resolution
beyond their results and descriptors, the interleaving of threads (except where a
property says so), the text of log messages, the samples (except where listed above) and the tests.

## 4. Violations found

Each is a theorem that exhibits a concrete input (`…_violated`), beside a
theorem with the suffix `_partial` that states what does hold.

| property | what the code does |
|---|---|
| C04 | `coap_mem_create`: the product of number and length wraps, and the pool overlaps |
| C05, C06, C07 | `coap_msg_parse`: with signed `char`, option deltas and lengths from bytes over 127 are sign-extended; codes of the classes 1, 3, 6, 7 are formatted but not parsed |
| C08 | `coap_msg_parse` reads one byte behind the buffer for accepted messages without payload |
| C09, C10 | `coap_msg_op_format`: the test of the space uses the option number in place of the length |
| C13 | `coap_msg_op_new`: when the value cannot be allocated, the structure is freed into the wrong pool |
| C15 | `coap_msg_uri_path_to_str` with length 0, or length 1 and no segment |
| C16 | `coap_msg_op_format_block_val`: numbers 2^4, 2^12, 2^20 are encoded as 0 |
| C51 | `coap_msg_op_parse_block_val` reads outside an empty value |
| C20 | a malformed datagram in between makes the server forget the sender: a request is executed twice; so does the acknowledgement of a separate response that comes after the next request (`C145_late_acknowledgement`), and a malformed datagram from a ninth address (`C146_crowd`) |
| C21, C22 | the first request of a new sender is taken for a duplicate if its id is 0 |
| C26 | a message with the stored request's id makes the server send the stored separate response again, without limit |
| C27 | message id 65535 is followed by a random id that can be 65535 |
| C52 | an Empty confirmable message (ping) reaches the application |
| C53 | the timer of an unacknowledged separate response is not stopped by the next request |
| C54 | a 1152-byte message without payload, and an empty Block option, make the server read outside its buffers |
| C35 | an Empty message is refused by the client with the wrong error code |
| C38 | `coap_server_trans_handle_next_block`: a transfer is identified by method and path alone, so that a delayed part of an earlier upload continues a later one and the application receives a mixed body |
| C40 | `uri_parse`: a colon in the path is taken for the port, an `@` in the path for the user information |
| C55 | `uri_copy` tests the scheme after copying the host and the port |
| C49 | `data_buf_expand`: doubling the size wraps |
| C42 | `http_msg_parse`: a body with a NUL never becomes complete |
| C43 | `http_msg_parse`: a header with its colon on the second line is an error until the second line arrives; a blank chunk size line makes the size depend on bytes behind the message |
| C44 | `http_msg_parse_body`: a chunk size of 2^31 or more is negative and leads to an unbounded `memcpy` |
| C56 | `http_msg_generate` with a buffer of length 0 copies the body without bound |
| C45 | `cross_status_coap_to_http`: the cases fall through, 2.00, 2.06, 2.12, 2.13 and 2.15 become client errors |
| C46 | `cross_uri_http_to_coap`: the path and the query are decoded before they are split, so that an encoded delimiter splits a part |
| C57 | `cross_uri_coap_to_http`: a slash or `&` within an option is not encoded, and a percent sign is decoded |
| C59 | `cross_headers_coap_to_http`: an entity tag with CR LF adds headers to the HTTP response |
| C60 | `cross.c` writes and reads Uri-Port, Max-Age and Accept as decimal digits |
| C61 | `cross_resp_coap_to_http`: no Content-Length for a response without content |
| C47 | `config_set`: a replacement without memory for the new value removes the old one |
| C48 | `config_parse`: after a last line without a line break the parser reads behind the text |
| C63 | `config_strerr`: the texts are shifted by one from code -3 |
| C50 | `connection_send` with `http_msg_generate`: the test `len <= space` lets a text pass that is as long as the buffer, and its last byte becomes NUL |
| C64 | `connection_recv` waits for data before it looks at what is in the buffer |
| C65 | `connection_coap_exchange` has no branch for DELETE |
| C66 | `connection_coap_exchange`: the body of a long GET request stays in the buffer of the response body; `Block2` of a response to POST or PUT is ignored; no reason phrase for 504 |
| C67 | `connection_coap_client_create` and `connection_process` use the port of a URI that has none |
| C68 | `coap_client_exchange_con`, `_non` and `_sep` compare the id of every message with that of the request: a separate response with the same id is rejected with -EBADMSG |
| C69 | the same comparison ends the exchange for a message with another token; a datagram that cannot be parsed ends it as well |
| C70 | `coap_client_handle_piggybacked_response` and `coap_client_handle_sep_response` do not look at the code |
| C71 | as C08 (`coap_msg_parse` reads the byte after a full buffer) and C51 (empty Block option) |
| C74 | `http_msg_parse_body` converts Content-Length with `atoi`: 4294967301 counts as 5 and text behind the number is ignored; a Transfer-Encoding other than exactly `chunked` (`gzip, chunked`) is ignored, so that the body is taken for the next request |
| C75 | `http_msg_generate_chunk` computes `out_len - 1` after the size line: when the size line fills the buffer (also with a buffer of length 0) it wraps around and the data are written behind the buffer |
| C77 | `connection_process` returns the error of `connection_coap_client_create`, whereupon the connection ends: if the CoAP server cannot be reached the HTTP client gets no response |
| C78 | as C74: the body of a request with `Transfer-Encoding: gzip, chunked` is read as further requests, which are sent to the CoAP server |
| C79 | `tls_server_cache_set` does not look for the key, so that a session stored twice is found with its old data, and `tls_server_cache_delete` removes only the first of the two |
| C81 | `tls_client_get` returns a pointer into the cache after it has released the lock: a session stored by another thread for the same address, or in the same element, is mixed with the data being read |
| C83 | `tls_ssock_accept` takes descriptor 0 for a failure (`sd > 0`): if descriptor 0 is free, a connection gets it and is neither served nor closed |
| C84 | `connection_coap_client_create` passes `NULL` as common name: the proxy accepts any certificate of a trusted authority for any CoAP server |
| C85 | `coap_server_dtls_create` (when the priorities cannot be created), `tls_server_destroy`, `tls_client_destroy` and the failure paths of the corresponding creations destroy the Diffie-Hellman parameters before the credentials that refer to them |
| C86 | `tls_init` does not undo `gnutls_global_init` when `gnutls_priority_init` fails; the lock of `CONNECTION_STATS` is never destroyed; `main` waits two seconds instead of waiting for its threads, then frees credentials and priorities that sessions of connections still use |
| C87 | when the server fails to send a response, it forgets the request: the client's retransmission is executed a second time (likewise after a malformed datagram or an eviction, see C20) |
| C88 | a configuration file whose last line has no line break makes the proxy read outside of the text (see C48); `util_load_txt_file` overflows `file_len + 1` for a length of `LONG_MAX`, which directories may have; everything after a NUL in the file is ignored without an error |
| C90 | as C87: an HTTP client is told that its request succeeded, but the CoAP server executed it twice, because it could not send its first response |
| C91 | `registrar_del` frees an entry to which its neighbours still point: after two clients were added and the second one deleted, the next call that adds or finds a client uses freed memory. An id of more than 31 bytes is truncated when it is stored, but compared in full: it is never found, and each registration adds another entry |
| C93 | `transfer_client_execute` returns 0 when `coap_client_exchange_blockwise` fails (it returns `ret` instead of `num`) and when the response is an error; `transfer_server_handle_rx` does not look at the result of `fclose`, so it answers 2.04 for a file that was not written. |
| C94 | For a response 2.05 without a payload `time_client_get_time` calls `memcpy` with a null pointer (and zero bytes), which C leaves undefined. The sample server sends such a response when `ctime_r` fails. |
| C95 | `connection_recv` calls `select` before every read without asking GnuTLS for bytes that it has already decrypted. A request of more than 4096 bytes that arrives in one TLS record is never received, and the connection times out. |
| C96 | `tls_sock_read_full` and `tls_sock_write_full` return only an error if they fail after a part of the bytes: what was read is lost and what was sent is unknown. `FD_SET` is called with descriptors of any size, which is undefined from 1024 on. |
| C97 | The timeout of a TLS socket starts again with each renegotiation and each part of a full read or write, so a peer can hold a call for many times the timeout. |
| C101 | With DTLS and all eight places taken, one datagram of an unknown sender ends the oldest session (`coap_server_trans_destroy` in `coap_server_exchange`) before the handshake with that sender has even begun. |
| C102 | An empty UDP datagram stops a DTLS server for good (`C102_stuck`): `coap_server_trans_dtls_pull_timeout_func` returns its length 0, which means timeout, so a library that waits before it reads never reads it, and it stays at the head of the queue. A datagram of another sender during a handshake makes the call-backs fail with `EINVAL`, so two clients that begin at the same time end each other's handshakes for ever (`C102_livelock`). |
| C104 | A DTLS datagram with two records (for example an acknowledgement and the separate response): `coap_client_listen_ack` and `coap_client_listen_resp` wait in `select` without asking `gnutls_record_check_pending`, so the second record is not received and the exchange ends with `-ETIMEDOUT` (`C104_timeout`). |
| C105 | `coap_client_dtls_pull_timeout_func` returns the length of the datagram it finds; for an empty one this is 0, which means timeout. A library that waits before it reads then never reads it, and the client cannot be created (`C105_stuck`). |
| C107 | A DTLS datagram with two requests: `coap_server_listen` waits in `select` without asking `gnutls_record_check_pending`, so the second request is answered only when another datagram of the same client arrives, and from then on the session is one record behind (`C107_unanswered`). |
| C108 | The pools have no lock, although the connection threads of the proxy share them. Two threads that allocate at the same time get the same buffer (`C108_same_buffer`); a free that happens while another thread allocates is undone, and the buffer is lost (`C108_lost`). |
| C109 | The id of each request is random and not compared with the previous one. A request with the id of the previous request is taken for its repetition: the application is not called, the server sends the old response again, and the client's exchange fails with `EBADMSG` (`C109_violated`). |
| C110 | As C109: if the id of the request for a block is that of the previous request, the server repeats its previous response, and the download fails with `EBADMSG` although every datagram arrives (`C110_violated`). |
| C111 | As C110: if the id of the request with a block is that of the previous request, the server repeats its previous response, and the upload fails with `EBADMSG` although every datagram arrives (`C111_violated`). An empty body is sent as one block without a payload, which the server refuses with 4.00 because the payload is missing; the call returns 0 (`C111_empty_violated`). |
| C112 | coap_client_exchange_blockwise takes one length for the body to be sent and for the buffer of the answer. If the application answers an upload with a longer body, the call fails with `ENOSPC`, although the buffer has room, and after the application has taken the upload (`C112_violated`: 16 bytes answered with 20; `C112_too_long`: whenever the answer is longer). |
| C113 | As C21: the first request of a sender is not answered if its id is 0; an Empty confirmable message is sent instead (`C113_violated`). An application that gives the block size 0 for the direction in which a body goes passes the check of the arguments, and the client gets no response (`C113_refused`, constructors `noSize1` and `noSize2`). |
| C115 | As C109: the proxy sends requests with random ids. One with the id of the request before is taken by the server for a repetition: the application is not called, the old response comes back, and the HTTP client gets 502 although nothing failed (`C115_violated`). |
| C116 | As C110: the first request of a fetch in blocks can have the id of the request before; the server answers it with the old response, and the HTTP client gets 502 although nothing failed (`C116_violated`). |
| C117 | As C111: the first request of an upload can have the id of the request before; the server answers it with the old response, and the HTTP client gets 502 although nothing failed (`C117_violated`). |
| C118 | connection.c passes the length of the body of the HTTP request to coap_client_exchange_blockwise, which takes it for the limit of the answer as well. An answer that is longer than the request body is lost, whatever the room in the buffer of 8192 bytes: the HTTP client gets 501 after the application has taken the body (`C118_too_long`, `C118_violated`: 1050 bytes answered with 1100). |
| C119 | As C118, for a body that is refused in one message and sent in blocks then: connection.c passes the length of the body, and an answer that is longer is lost with 501 (`C119_too_long`, `C119_violated`: 40 bytes answered with 1100). |
| C120 | For a buffer of length 0, `util_strncpy` and `util_strncat` return 0, not the length that the string would have, as their comments say (`C120_violated`). |
| C122 | As C109, over DTLS: a request with the random id of the previous one is answered with the previous response (`C122_violated`). |
| C123 | `connection_recv` (connection.c 273) gives the wrong variable to `http_msg_strerror`: whatever is wrong with a request is logged as `(unknown)` (`C123_violated`). |
| C124 | The client does not compare the ETags of the blocks (RFC 7959 section 2.4): a resource that changes during a download is returned as a mixture of its representations, with success (`C124_violated`). |
| C125 | All blocks of a download but the last are sent with the code 2.31 (Continue) instead of 2.05 (coap_server.c:1504), so that clients other than this library's see a response that is not Content (`C125_violated`). If the size of the body is a multiple of the block size, the last full block says that there are more, and an empty one follows (`C125_violated_more`). |
| C126 | An upload in blocks that the server accepts and answers with a payload without a Block2 option ends with EBADMSG (`C126_violated`). So does one in which the server asks for smaller blocks when it confirms a block other than the first: the client multiplies the number of the confirmed block by the new size (`C126_violated_late`; RFC 7959 section 2.3). |
| C127 | After a blockwise transfer that was given up, the next request of the client, whatever it is (here a DELETE), is answered 4.00 and does not reach the application (`C127_violated`). Only one request is lost (`C127_once_partial`). |
| C128 | The server confirms the first block of 32 bytes and would like blocks of 16; if the client goes on with 32, its next block is answered 4.08 and the upload fails (`C128_violated`): the number of the block is multiplied by the size of the server. |
| C129 | A path of 256 bytes can be registered, but requests for it never get a separate response (`C129_violated`); a request for a longer path that begins with a registered path of 255 bytes (`C129_violated_longer`), or that has a zero byte after a registered path (`C129_violated_zero`), gets one. |
| C130 | A datagram with an option longer than a buffer of the medium pool (the samples have 1024 bytes, a datagram 1152) takes a buffer of the small pool for good; a client can thus make the server refuse every later message with an option (`C130_violated`, `C130_exhausted`). |
| C131 | When coap_msg_copy fails at the beginning of a block (coap_client.c:1690-1694 and 1851-1855) the function returns without destroying its copy of the request; the buffers of the options copied so far are lost (`C131_violated`). |
| C132 | With the pools of the samples (128 small buffers, 8 transactions) one datagram with 129 options makes an allocation fail (`C132_violated`), and so does a request of 60 options after eight clients have made a request of ten options each (`C132_held`): the messages that are recorded for the detection of duplicates keep their buffers. |
| C134 | The proxy does not limit the number of connections and does not check descriptors before `FD_SET`. In a process that may have more than 1024 descriptors, clients that connect and send nothing make it write outside of the `fd_set` on the stack (`C134_exhausted`). |
| C135 | As C38, with DTLS: records may be reordered, so a part of an earlier upload that the client has sent twice can continue a later upload to the same path (`C135_violated`). |
| C137 | `transfer_client_execute` (transfer_client.c:244-248) does not destroy the request and the response when the transfer succeeds: their buffers stay in use. A program that calls it again and again can make at most half as many transfers as the small pool has buffers. |
| C139 | The library does not compare descriptors with FD_SETSIZE: in a process that may have more than 1024 descriptors and whose application has 1016 open, the eighth client of a server makes `coap_server_listen` write outside of its descriptor set; a client does so with 1023 others. |
| C140 | A client whose random ids for two consecutive requests are equal gets no execution of the second request: it is taken for a repetition of the first. |
| C141 | The same as C140, here without any loss. |
| C142 | The server numbers its separate responses independently of the requests: if the id of the response happens to be that of the request, the client refuses the response with EBADMSG. |
| C143 | The server remembers eight clients: when a ninth one makes a request, another is forgotten, and its last request is executed again if it is repeated. A first request with id 0 is not executed (C21). |
| C149 | `http_msg_parse_body` (http_msg.c 399, 499–501): a negative Content-Length such as −1 becomes a huge `size_t`, and the parser asks for more (EAGAIN) whatever follows, instead of refusing the message. |
