# Formal model of eddic/fastcgipp in Lean 4

## Method

* `lean/Verif/Model/*` - executable model, function by function; each definition cites the file
  and lines in /repo it models and lists simplifications.
* `lean/Verif/Spec/*` - small independent specifications (wire grammars, reference encoders,
  abstract queues and maps, vocabularies of events) that do not mention the model.  `Spec/*Terms` hold the words
  that theorem statements use about model states and runs (what was sent, what has arrived, nobody can move ...).
* `lean/Verif/Lemmas/*` - helper lemmas.
* `lean/Verif/Props/*` - the property theorems, one file per area, with examples that meet their hypotheses.
* `seeded/LOG.jsonl` - wrong programs tried against the theorems.

Conventions: bytes are `UInt8`; buffers are lists plus indices; reads and writes outside the buffer are
the distinct outcome `ub`; loops whose termination is a question take fuel, running out of fuel is the
distinct outcome `stuck`, and termination is proved as "enough fuel never gets stuck".
Uninitialised memory is an arbitrary parameter, so a theorem holds for whatever it contains (or it is an explicit
`none`, where using it is counted as an error).
Concurrent parts are transition systems whose steps are what one thread does between two accesses to shared state;
theorems hold for every interleaving (`...Run`), every choice of the environment being a parameter of the step.
Where the unchanged code violates a property the negation is proved for a witness or a family of them
(`..._violated`), and the part that does hold is proved in a theorem with suffix `_partial`.
A claim with status `partial` has at least one theorem of either kind; its note says what is missing.

## Trusted base

* Lean 4.33.0's kernel (all proofs are checked by it; `decide +kernel` in examples evaluates in the kernel).
* The axioms `propext`, `Classical.choice` and `Quot.sound`, nothing else; AXIOMS.md lists them for each claimed theorem.
  No axiom is declared, no compiled code is trusted (no `ofReduceBool`).
* That the model is the code: the citations in Model/*, and the simplifications and assumptions written there and below.
* That the specifications in Spec/* say what the English says.

### Assumptions about what is not in /repo

* C++: the abstract machine with checked memory.  Integer types have the sizes of 64 bit Linux.  Threads are sequentially
  consistent; data races of the code (C135 lists all of them) are undefined behaviour in C++ but interleaved atomically in the other models.
  For C135 and C136 the functions are reduced to lock operations and accesses to shared objects with open conditions (Model/Races); one Manager, Mailer, Curler and SQL connection; `listen()` only before `start()`;
  a request being constructed is not yet shared; atomics and the thread-safety of the C library (except gmtime/localtime) are assumed.
  Memory allocation succeeds.
* The kernel: `read`/`write`/`accept`/`connect` return anything allowed by POSIX (any fragmentation, any error);
  descriptors may be reused at once after `close`; `epoll_wait` reports any ready descriptor.
* `std::codecvt_utf8` converts Unicode scalar values to and from UTF-8; its behaviour on other input is a parameter or a
  stated simplification (Model/Curl `utf8Decode1`).
* PostgreSQL's binary formats are as in Spec/Sql; libpq delivers results of queries on a connection in order; libcurl
  completes transfers only inside `curl_multi_socket_action` and its messages are read in order.
* User code (request handlers, callbacks) returns.

## What is modelled

| Source | Modelled | Not modelled |
|---|---|---|
| endian.hpp, protocol.hpp/cpp | all: BigEndian, headers, processParamHeader, record sizes, management replies, RequestId order | - |
| block.hpp/cpp | all (Model/Block); in the transceiver as its bookkeeping | - |
| transceiver.hpp/cpp | send, transmit, receive, cleanupSocket, handler loop, wake, stop, terminate | constructor details |
| sockets.hpp/cpp | Socket handles (copies, origin), read, write, close, SocketGroup: accept, poll, wake, listen (named sockets with the file system: Model/Listen), connect | links and other names for the same file, address resolution itself |
| poll.hpp/cpp | add, del, poll: as nondeterministic choice on Linux; exactly for the `poll(2)` variant; one call of the group's poll with all its exits in Model/Group | - |
| manager.hpp/cpp | push, handler threads, localHandler, stop, terminate, start, join, signal handlers as calls; resizeThreads and the destructor in Model/Life | setLoggers |
| request.hpp/cpp | for char (Model/Request) and wchar_t (Model/RequestWide): handler, state machine, complete, errorHandler, bigPostErrorHandler, send callbacks, pickLocale, setLocale data | locale facets |
| http.hpp/cpp | atoi, percentEscapedToRealBytes, Environment<char> and Environment<wchar_t>: fill, parsePostBuffer, multipart, urlencoded, decodeUrlEncoded; base64, SessionId, Sessions; the date of If-Modified-Since (Model/Date); atof over IEEE doubles (Model/Atof) | strftime's own text |
| webstreambuf, fcgistreambuf, chunkstreambuf | xsputn, overflow, sync, dump, emptyBuffer for char and wchar_t, encodings; std::basic_ostream on top of them, the destructor (Model/Ostream) | the text of numbers |
| address.hpp/cpp | all: assign, operators, zero, output and input | - |
| sql/parameters, sql/results, sql/types | every type's wire form and reading, verify | templates' overload resolution |
| sql/connection, connection.cpp | handler, queue, stop, terminate, dispatch, results, reconnection; init, start, join and the destructors of all three helpers in Model/HelperLife | libpq itself |
| mailer.hpp/cpp, email.hpp/cpp | the SMTP state machine, queue, stop, terminate; Email<char> and Email<wchar_t> (Model/Email) | TLS (there is none) |
| curl.hpp/cpp | request objects, callbacks, prepare, reset, headers for char; response for char and wchar_t | curl options without effect on the above |
| curler.hpp/cpp | handler, queue, wake, stop, terminate, start, join, socketCallback | libcurl itself |
| message.hpp | messages as data; callbacks called by handler threads and others (Model/Calls) | – |
| log.hpp/cpp | Model/Log: the macros step by step, any number of threads; `suppress`, also in SocketGroup::poll; elsewhere `FAIL_LOG` is the end of the program | the names of host and program (parameters); static destructors after `std::exit`; `suppress` in Curler and SQL connections |

Not expressible in the model: real time, processor time, exhaustion of memory or descriptors, the contents of log files.

## Plan and result per property

| Property | What is modelled | How it is proved | Status |
|---|---|---|---|
| C01 Big-endian integers round trip and use network byte order | Model/Endian: `BigEndian` set/read for every size | arithmetic of digits; round trip both ways | proved |
| C02 FastCGI name/value header decoding is exact and stays inside the buffer | Model/Protocol: `processParamHeader` with checked reads | case analysis against the grammar of Spec/Wire; induction over the list of pairs | proved |
| C03 Parameter lists round trip | Model/Protocol: `processParamHeader` with checked reads | case analysis against the grammar of Spec/Wire; induction over the list of pairs | proved |
| C04 Parameters do not depend on how the PARAMS stream is cut into records | Model/Request, Model/Http `fill`: the PARAMS phase | induction over records; the negation by a family of witnesses | partial |
| C05 Record sizes are aligned and never truncated content wrongly | Model/Protocol, Model/Manager `localHandler`: record sizes, management replies, order of RequestId | arithmetic; fuel induction for the endless loop; order axioms | proved |
| C06 Management replies are self-consistent records | Model/Protocol, Model/Manager `localHandler`: record sizes, management replies, order of RequestId | arithmetic; fuel induction for the endless loop; order axioms | partial |
| C07 Management records are each answered once | Model/Protocol, Model/Manager `localHandler`: record sizes, management replies, order of RequestId | arithmetic; fuel induction for the endless loop; order axioms | partial |
| C08 Request identifiers are ordered totally and grouped by connection | Model/Protocol, Model/Manager `localHandler`: record sizes, management replies, order of RequestId | arithmetic; fuel induction for the endless loop; order axioms | proved |
| C09 Record delivery does not depend on how reads are fragmented | Model/Transceiver: `Block`, `receive`, `cleanupSocket` | refinement: the buffer is the unconsumed suffix of the stream, for every fragmentation by the kernel | proved |
| C10 Connections do not corrupt each other's input | Model/Transceiver: `Block`, `receive`, `cleanupSocket` | refinement: the buffer is the unconsumed suffix of the stream, for every fragmentation by the kernel | proved |
| C11 A closing connection is announced exactly once and its partial input discarded | Model/Transceiver: `Block`, `receive`, `cleanupSocket` | refinement: the buffer is the unconsumed suffix of the stream, for every fragmentation by the kernel | partial |
| C12 Output stream content is preserved in order | Model/Streams: `WebStreambuf`, `FcgiStreambuf`, `ChunkStreamBuf<char>` | invariant over lists of stream operations; the content is a fold over the operations | proved |
| C13 Every output record is well formed | Model/Streams: `WebStreambuf`, `FcgiStreambuf`, `ChunkStreamBuf<char>` | invariant over lists of stream operations; the content is a fold over the operations | proved |
| C14 HTML encoding neutralises markup and loses nothing | Model/Streams: `WebStreambuf`, `FcgiStreambuf`, `ChunkStreamBuf<char>` | invariant over lists of stream operations; the content is a fold over the operations | proved |
| C15 URL encoding inverts URL decoding | Model/Streams: `WebStreambuf`, `FcgiStreambuf`, `ChunkStreamBuf<char>` | invariant over lists of stream operations; the content is a fold over the operations | proved |
| C16 Chunked stream buffers keep all data and insertion terminates | Model/Streams: `WebStreambuf`, `FcgiStreambuf`, `ChunkStreamBuf<char>` | invariant over lists of stream operations; the content is a fold over the operations | partial |
| C17 Queued records reach each socket completely and in order | Model/Transceiver: `transmit`, `send` with any kernel results | invariant with the history of bytes sent | proved |
| C18 Concurrent senders cannot tear or reorder records | Model/Transceiver: `transmit`, `send` with any kernel results | invariant with the history of bytes sent | proved |
| C19 A connection is closed only after its final record is fully written | Model/Transceiver: `transmit`, `send` with any kernel results | invariant with the history of bytes sent | proved |
| C20 Percent decoding is memory safe and never grows | Model/Http, Model/HttpText: decoders, `fill`, POST parsers, multipart | loops over checked memory; round trips against the reference encoders of Spec/Http | proved |
| C21 URL-encoded forms, queries and cookies round trip | Model/Http, Model/HttpText: decoders, `fill`, POST parsers, multipart | loops over checked memory; round trips against the reference encoders of Spec/Http | proved |
| C22 Query parsing treats every field independently | Model/Http, Model/HttpText: decoders, `fill`, POST parsers, multipart | loops over checked memory; round trips against the reference encoders of Spec/Http | partial |
| C23 Decimal integers in headers are parsed exactly | Model/Http, Model/HttpText: decoders, `fill`, POST parsers, multipart | loops over checked memory; round trips against the reference encoders of Spec/Http | partial |
| C24 Environment variables are dispatched by name and the last value wins | Model/Http, Model/HttpText: decoders, `fill`, POST parsers, multipart | loops over checked memory; round trips against the reference encoders of Spec/Http | proved |
| C25 Path info segments round trip | Model/Http, Model/HttpText: decoders, `fill`, POST parsers, multipart | loops over checked memory; round trips against the reference encoders of Spec/Http | partial |
| C26 Accept-Language lists are parsed into locale tags | Model/Http, Model/HttpText: decoders, `fill`, POST parsers, multipart | loops over checked memory; round trips against the reference encoders of Spec/Http | proved |
| C27 Request methods are recognised exactly | Model/Http, Model/HttpText: decoders, `fill`, POST parsers, multipart | loops over checked memory; round trips against the reference encoders of Spec/Http | proved |
| C28 POST data is accumulated independently of record boundaries | Model/Http, Model/HttpText: decoders, `fill`, POST parsers, multipart | loops over checked memory; round trips against the reference encoders of Spec/Http | proved |
| C29 Multipart forms round trip | Model/Http, Model/HttpText: decoders, `fill`, POST parsers, multipart | loops over checked memory; round trips against the reference encoders of Spec/Http | proved |
| C30 Multipart parsing is total and memory safe | Model/Http, Model/HttpText: decoders, `fill`, POST parsers, multipart | loops over checked memory; round trips against the reference encoders of Spec/Http | proved |
| C31 Base64 round trips | Model/Base64, Model/Session, `pickLocale` | block induction; refinement of histories to an abstract map | proved |
| C32 Base64 decoding of arbitrary text stays in bounds | Model/Base64, Model/Session, `pickLocale` | block induction; refinement of histories to an abstract map | partial |
| C33 Session identifiers round trip through their printed form | Model/Base64, Model/Session, `pickLocale` | block induction; refinement of histories to an abstract map | proved |
| C34 The session store never returns an expired or foreign session | Model/Base64, Model/Session, `pickLocale` | block induction; refinement of histories to an abstract map | proved |
| C35 Locale choice follows the client's preference | Model/Base64, Model/Session, `pickLocale` | block induction; refinement of histories to an abstract map | partial |
| C36 A request answers exactly once, after its input is complete | Model/Request: the state machine of one request | invariant by induction over messages | partial |
| C37 POST size limit is enforced | Model/Request: the state machine of one request | invariant by induction over messages | proved |
| C38 Unsupported roles and out-of-order records are refused | Model/Request: the state machine of one request | invariant by induction over messages | proved |
| C39 END_REQUEST is a well-formed record | Model/Request: the state machine of one request | invariant by induction over messages | proved |
| C40 No message is lost between concurrent handler threads | Model/Manager: any number of threads, atomic steps between lock operations | inductive invariants over all interleavings | proved |
| C41 A request is handled by one thread at a time, in arrival order | Model/Manager: any number of threads, atomic steps between lock operations | inductive invariants over all interleavings | proved |
| C42 Graceful stop drains the requests | Model/Manager: any number of threads, atomic steps between lock operations | inductive invariants over all interleavings | partial |
| C43 A dropped connection removes exactly its own requests | Model/Manager: any number of threads, atomic steps between lock operations | inductive invariants over all interleavings | proved |
| C44 Only BEGIN_REQUEST creates requests | Model/Manager: any number of threads, atomic steps between lock operations | inductive invariants over all interleavings | proved |
| C45 Wake-ups are not lost | Model/Wake, Model/Sockets | inductive invariants over all interleavings / all operation sequences | proved |
| C46 Socket handles share one connection and close it once | Model/Wake, Model/Sockets | inductive invariants over all interleavings / all operation sequences | proved |
| C47 Printing and parsing an address are inverse | Model/Address | arithmetic of groups against the RFC 4291 grammar of Spec/Address | proved |
| C48 Address text parsing is exact and in bounds | Model/Address | arithmetic of groups against the RFC 4291 grammar of Spec/Address | partial |
| C49 Address comparison and masking follow the byte order | Model/Address | arithmetic of groups against the RFC 4291 grammar of Spec/Address | proved |
| C50 SQL parameters decode to the value encoded | Model/Sql: `Parameter_t`, `Results_base` | round trips against PostgreSQL's formats of Spec/Sql | partial |
| C51 SQL arrays round trip | Model/Sql: `Parameter_t`, `Results_base` | round trips against PostgreSQL's formats of Spec/Sql | partial |
| C52 SQL array verification makes element access safe | Model/Sql: `Parameter_t`, `Results_base` | round trips against PostgreSQL's formats of Spec/Sql | partial |
| C53 SQL queries are executed in queue order and called back once | Model/SqlConn: `Sql::Connection` handler, callers, server | inductive invariants over all interleavings | partial |
| C54 Emails are delivered in order and retried until acknowledged | Model/Mail: the SMTP state machine with any server | invariant relating the conversation with the grammar of Spec/Mail | partial |
| C55 Message data cannot break out of the SMTP DATA phase | Model/Mail: the SMTP state machine with any server | invariant relating the conversation with the grammar of Spec/Mail | partial |
| C56 HTTP client request body is the data written | Model/Curl: request objects and callbacks | induction over callbacks; arithmetic of chunks | partial |
| C57 HTTP client response body is the data received | Model/Curl: request objects and callbacks | induction over callbacks; arithmetic of chunks | partial |
| C58 HTTP client concurrency is bounded and every transfer calls back once | Model/Curler: the thread, callers, any transfer library | inductive invariant over all interleavings | partial |
| C59 Characters written one at a time are encoded too | Model/Streams: `put`, wide FcgiStreambuf | invariant over operations; families of witnesses | partial |
| C60 Wide output streams send the UTF-8 encoding of the text written | Model/Streams: `put`, wide FcgiStreambuf | invariant over operations; families of witnesses | partial |
| C61 A session identifier made from text depends only on the text | Model/Session | induction over text; histories | partial |
| C62 The cookie expiration offered is not before the session's expiry | Model/Session | induction over text; histories | partial |
| C63 A request id can be reused as soon as the request is over | Model/Manager | inductive invariants over all interleavings; reachable witnesses | partial |
| C64 The manager's threads use no destroyed request and read nothing they do not own | Model/Manager | inductive invariants over all interleavings; reachable witnesses | partial |
| C65 No request of a lost connection stays | Model/Manager | inductive invariants over all interleavings; reachable witnesses | partial |
| C66 The manager's threads never deadlock and always come to rest | Model/Manager | inductive invariants over all interleavings; reachable witnesses | proved |
| C67 Everything sent is written, in order, without waiting for other traffic | Model/Manager | inductive invariants over all interleavings; reachable witnesses | proved |
| C68 The transceiver's thread ends exactly when asked | Model/Manager | inductive invariants over all interleavings; reachable witnesses | proved |
| C69 Connections are let in after start() and not after stop() | Model/Sockets | invariants over operations; reachable witnesses | partial |
| C70 An established connection is usable | Model/Sockets | invariants over operations; reachable witnesses | partial |
| C71 Every address found by the resolver is tried | Model/Sockets | invariants over operations; reachable witnesses | partial |
| C72 Printing an address stays in its buffer | Model/Address: stream operators | as C47; families of witnesses | partial |
| C73 Addresses obey width, fill and alignment | Model/Address: stream operators | as C47; families of witnesses | proved |
| C74 Extraction of an address reads exactly its text | Model/Address: stream operators | as C47; families of witnesses | partial |
| C75 Result verification names the first wrong column | Model/Sql | table of PostgreSQL's types; case analysis | proved |
| C76 Each SQL parameter reaches the server as its value or as NULL | Model/Sql | table of PostgreSQL's types; case analysis | partial |
| C77 No accepted SQL query waits while a connection is idle | Model/SqlConn | inductive invariants over all interleavings; reachable witnesses | proved |
| C78 queue() and the SQL thread never block each other for ever | Model/SqlConn | inductive invariants over all interleavings; reachable witnesses | partial |
| C79 Nothing the database does brings down the process | Model/SqlConn | inductive invariants over all interleavings; reachable witnesses | partial |
| C80 Results at an SQL callback are those of the execution that completed | Model/SqlConn | inductive invariants over all interleavings; reachable witnesses | partial |
| C81 stop() and terminate() end the SQL thread, and only they | Model/SqlConn | inductive invariants over all interleavings; reachable witnesses | proved |
| C82 A query given to a connection is sent completely | Model/SqlConn | inductive invariants over all interleavings; reachable witnesses | partial |
| C83 stop() drains the mailer | Model/Mail | as C54; liveness as a decreasing measure; reachable witnesses | proved |
| C84 A willing server gets every email | Model/Mail | as C54; liveness as a decreasing measure; reachable witnesses | partial |
| C85 stop() and terminate() end the mailer's thread, and nothing else does | Model/Mail | as C54; liveness as a decreasing measure; reachable witnesses | partial |
| C86 The mailer has no undefined behaviour whatever the server does | Model/Mail | as C54; liveness as a decreasing measure; reachable witnesses | partial |
| C87 Every command of the mailer is one SMTP command line | Model/Mail | as C54; liveness as a decreasing measure; reachable witnesses | partial |
| C88 An idle mailer sleeps | Model/Mail | as C54; liveness as a decreasing measure; reachable witnesses | partial |
| C89 The HTTP client never reads outside its response buffer | Model/Curl, Model/ChunkWide | induction over callbacks / operations; families of witnesses | partial |
| C90 HTTP client response headers are the headers received | Model/Curl, Model/ChunkWide | induction over callbacks / operations; families of witnesses | partial |
| C91 No response header makes the HTTP client throw | Model/Curl, Model/ChunkWide | induction over callbacks / operations; families of witnesses | partial |
| C92 reset() makes a Curl object as new | Model/Curl, Model/ChunkWide | induction over callbacks / operations; families of witnesses | partial |
| C93 A Curl object can be destroyed or queued again after its request | Model/Curl, Model/ChunkWide | induction over callbacks / operations; families of witnesses | partial |
| C94 Wide HTTP client responses are the text received | Model/Curl, Model/ChunkWide | induction over callbacks / operations; families of witnesses | partial |
| C95 Wide chunk buffers hold the UTF-8 of what was written | Model/Curl, Model/ChunkWide | induction over callbacks / operations; families of witnesses | partial |
| C96 HTTP client request headers | Model/Curl | induction over the headers | proved |
| C97 stop() drains the HTTP client | Model/Curler | inductive invariant over all interleavings; termination by a decreasing measure; an absorbing set of states for the violation | partial |
| C98 The HTTP client's thread ends only when asked to and loses no wake-up | Model/Curler | inductive invariant over all interleavings; termination by a decreasing measure; an absorbing set of states for the violation | proved |
| C99 Queueing a request never ends the program | Model/Curler | inductive invariant over all interleavings; termination by a decreasing measure; an absorbing set of states for the violation | partial |
| C100 Every completed transfer is noticed | Model/Curler | inductive invariant over all interleavings; termination by a decreasing measure; an absorbing set of states for the violation | partial |
| C101 The HTTP client polls sockets for what the transfer library asks | Model/Curler `socketCallback`, `Poll::add`, `Poll::del` | induction over the history of the library's requests | partial |
| C102 A server answers every request exactly as the request alone would | Model/Server (composition of Model/Transceiver, Model/Manager and Model/Request or Model/RequestWide) | projection of every run of the composition to runs of the parts; invariants linking what is received, routed, given to requests, made by them and sent; then the theorems about the parts | proved |
| C103 Every request id is served | Model/Server (composition of Model/Transceiver, Model/Manager and Model/Request or Model/RequestWide) | projection of every run of the composition to runs of the parts; invariants linking what is received, routed, given to requests, made by them and sent; then the theorems about the parts | partial |
| C104 A peer that does not read does not hold up the others | Model/Transceiver `txStep` | invariant of all stalled continuations; decreasing measure for the partial theorem | partial |
| C105 Requests go only for a reason | Model/Manager, Model/Server | invariant on the trace of events | proved |
| C106 SIGUSR1 stops and SIGTERM terminates the server | Model/Signals (over Model/Manager) | invariant of all continuations of a stuck state; simulation by runs of the manager without signals | partial |
| C107 Management records are answered whatever else the server does | Model/Server | first-in-first-out of management messages, a thread is awake whenever a task is queued, counting of records per value over all threads | proved |
| C108 Wide applications see the same request | Model/HttpWide, Model/Utf8 | simulation of the wide by the narrow environment, loop by loop; the UTF-8 decoder against all byte strings | partial |
| C109 The poller tells of every descriptor with something pending | Model/Poll | induction over histories; set semantics | partial |
| C110 A connection that cannot be accepted does not end the server | Model/Group `SocketGroup::poll`, `createSocket` | induction over the answers of the operating system | partial |
| C111 Every request is answered in the end | Model/ServerOwn: the steps of Model/Server that do not come from outside, with a kernel that does not refuse to work | a well-founded measure over transceiver, manager and requests; C102 at rest | proved |
| C112 Log entries are whole and in order, whatever was logged before | Model/Log: threads, mutex, every insertion into the stream a step | invariants over runs; a measure for the end | partial |
| C113 Suppressing the log changes nothing else | Model/Log `pollHush`: SocketGroup::poll with FAIL_LOG going on | induction over the answers of the operating system | partial |
| C114 An email carries the addresses set last and the text written | Model/Email: Email<char> and Email<wchar_t> on the chunk buffers of C16 and C95 | simulation by a run of the chunk buffer; induction over the calls | partial |
| C115 An email can be destroyed, or queued again, after it has been queued | Model/Email: Email<char> and Email<wchar_t> on the chunk buffers of C16 and C95 | simulation by a run of the chunk buffer; induction over the calls | partial |
| C116 A manager can be started, stopped, resized and destroyed at any time | Model/Life: what each std::thread object holds | induction over the calls | partial |
| C117 A server listening on a named socket is reached by that name | Model/Listen: a file system shared by any number of groups; listen(name), ~SocketGroup, crash | invariants over histories | partial |
| C118 A block is a vector that does not initialise its elements | Model/Block: all of block.hpp/cpp, with allocated memory that may be unwritten | refinement of Spec/Block (a vector), induction over the calls | partial |
| C119 The time of If-Modified-Since is the client's date | Model/Date: http.cpp 407-421 with get_time in the C locale and POSIX mktime | the formula equals counting year by year, by induction; parsing of the text digit by digit | partial |
| C120 A request with wide characters keeps the same life cycle and sends its text as UTF-8 | Model/RequestWide: the template of Model/Request with wide environment, wide stream buffers and streams that can fail (badbit) | the invariants of the narrow request (C18-C29) carried over; sent text by the stream invariant of Lemmas/StreamWide | partial |
| C121 The narrow and the wide version of an application answer the same | Model/Request and Model/RequestWide | simulation: the two runs are in lock step (relation SameReq), by induction over the messages | partial |
| C122 The text of an address is the canonical one | Model/Address | Spec/AddressCanon gives RFC 5952; the chosen run by an invariant over the groups scanned, the text by induction over the groups | partial |
| C123 The HTTP client, the mailer and SQL connections can be started, stopped and destroyed at any time | Model/HelperLife | an invariant relating the thread object to the history, by induction over the calls | partial |
| C124 What an application writes to its streams is what is sent, before the end of the request | Model/Ostream (std::basic_ostream after libstdc++ 13, on Model/Streams) | Spec/Ostream says what each operation says; each operation keeps the invariant that what was said is in the records or in the buffer, by induction over the operations; complete() and the destructor empty the buffers | partial |
| C125 The client of a refused request is told so, in one well-formed response | Model/Request, Model/RequestWide (errorPage, defaultHandlers) | Spec/ErrorPage is a grammar of CGI responses, shown unambiguous; invariant over the messages: as long as response() was not called the streams hold the pages of the error handlers called, and an error handler is the last call of a request | partial |
| C126 What is flushed is sent at once | Model/Ostream | the invariant of C124 (records sent + buffer = what was said) and, operation by operation, that prompt operations leave the buffer empty | proved |
| C127 A message given to a request through its callback is handled by that request, exactly once | Model/Calls on Model/Manager | a run with nested calls is a run of the manager (nrun_mrun); counting messages taken per id by a permutation invariant; a thread frozen in a call is not the reason why nobody moves; for the destructor, an invariant that holds the thread and the call in place for ever | partial |
| C128 A callback can be called from anywhere | Model/Calls on Model/Manager | a run with nested calls is a run of the manager (nrun_mrun); counting messages taken per id by a permutation invariant; a thread frozen in a call is not the reason why nobody moves; for the destructor, an invariant that holds the thread and the call in place for ever | partial |
| C129 A kept connection serves one request after the other with the same id | Model/Server | the routed records of an id cut into segments, one per request object (Lemmas/ServerAgain), aligned with the conversations of the peer; then the theorem about one request (C102) per segment | proved |
| C130 Answers depend on the requests only | Model/Server | simulation between two requests on their own with different memory and socket (Lemmas/Blur), then C129 for each run | partial |
| C131 The memory held for a connection's input is bounded and released | Model/Transceiver | invariant on the receive buffers by induction over histories | partial |
| C132 Decimal fractions are read correctly rounded | Model/Atof | rounding to nearest proved for the model of IEEE doubles (Lemmas/Atof), then relative errors by induction over the digits (Lemmas/AtofLoop) | partial |
| C133 A stream that says it is good has lost nothing | Model/Ostream | invariant: while the stream is good a bad character is still in the buffer; the rest from C126 | partial |
| C134 A session store forgets what is not used | Model/Session | invariant: every stored session was used at its time stamp, identifiers are distinct, and none is older than the last cleanup minus the keep-alive time | partial |
| C135 No data races | Spec/Race, Model/Races | a lock discipline (which locks protect which object, or which thread owns it), checked along every program; invariant: locks exclude each other; violations by explicit schedules | partial |
| C136 No deadlocks | Spec/Race, Model/Races | an order of the locks, checked along every program: who waits has only smaller locks, so following the waiting threads ends; the violation by an explicit schedule | partial |
| C137 The HTTP client asks for what it was told to | Model/CurlSettings | induction over the history of calls | partial |
| C138 A willing database gets and answers every query | Model/SqlConn | a lexicographic measure every step decreases; the states without a step are analysed with the invariants of C53, C77, C79 | proved |
| C139 Choosing an output encoding is safe on every stream | Model/EncManip | induction over the history | partial |
| C140 A result tells what the server said about it | Model/SqlStatus | cases; the decimal text of a count is read back by induction | partial |
| C141 The log names the host and the program | Model/LogStart | cases, with the UTF-8 lemmas of C108 | partial |
| C142 Listening on ports and on the inherited socket | Model/ListenFd | induction over the loop and over the history | partial |
| C143 A request queued again posts the same data | Model/Curl | invariant of the chunk list under reading and preparing again; induction over the attempts | partial |
| C144 Data cannot break out of the place they are written to | Model/Ostream (and what it uses) | two lives of a request compared by induction over the operations, on top of the exact contents of C124; the tables by checking all bytes | partial |
| C145 SQL connections and mailers go where the first init() said | Model/Settings | cases and arithmetic of the conversions to int; induction over the calls of init() | partial |
| C146 A session is found again by the cookie it was given | Model/Ostream, Model/Http, Model/Base64, Model/Session | composition of the exact output of C124 with C21, C33 and C34; the text of an identifier by induction over groups of three bytes | partial |
| C147 The expiration text of a session store is its expiration time as an HTTP date | Model/Expiration | gmtime by induction over years and months against the calendar of Spec/Date; invariant over the calls | partial |
| C148 A form sent to a server is what its application answers | Model/Server, Model/Request, Model/Http | composition of C111, C28, C39, C24, C21 and C29; induction over the records for what the handlers write | proved |
| C149 An application that answers later, through its callback, is heard | Model/Server, Model/Request, Model/Manager, Model/RequestWide | the object of the request at two moments of rest (C102, C111), induction over the messages for what the application writes, and an invariant about the thread that calls the callback | proved |
| C150 A form sent to an application with wide characters is what the application answers | Model/Server, Model/RequestWide, Model/HttpWide | the run of the request with a narrow environment carried along (C108), then C111 as in C148 | proved |
| C151 Who sends a request that is refused is told so, whatever else the server does | Model/Server, Model/Request, Model/RequestWide | the run of the request up to the record with which it is refused (C24 for what the environment holds then), C125 for that record, then C111 as in C148 | proved |
| C152 An application can take the body of a request itself | Model/Server, Model/Request, Model/RequestWide | the run of the request record by record, for arbitrary inHandler() and inProcessor(), C24 for the environment, then C111 as in C148 | proved |
| C153 A web server that gives up a request is answered at once | Model/Server, Model/Request, Model/RequestWide | the run of the request up to the abort, by the place of the cut; completion of a live request (C39, C120); then C111 as in C148 | proved |
| C154 Forms sent one after another over a kept connection | Model/Server, Model/Request | induction on the number of forms: the answers so far make the next conversation separate from those before it (C129), each request on its own is the form of C148; the connection is kept by C129 | proved |
| C155 Records and callbacks that come in turn are handled in that order | Model/Server, Model/Request | induction on the phases: what the object has been given is a prefix of the inputs, all of them unless it is complete (from C111 at each rest); the run of the form, the callbacks and the abort as in C149 and C153 | proved |
| C156 An application that takes long does not hold up the other requests | Model/Manager | invariant: while a thread waits there are as many threads on their way to the queue of tasks as there are tasks; progress of all but the slow threads from the well-founded order of C66 | proved |

## Findings

Defects of the code seen while modelling.  Those with a property number are theorems (`Cxx..._violated`); the others are
observations outside the model.

Wire protocol and transport
* C118: a Block moved to itself loses its content.
* C04: a PARAMS pair divided between two records is lost.  C06: a management reply's content length omits the two length bytes of a pair.
  C07: a GET_VALUES record with a complete pair makes the handler loop for ever.
* C117: listen(name) leaves the file behind if chown, chmod or listen is refused; cuts names of 108 bytes or more; uses the null pointer of an
  unknown user or group; ignores an owner without a group.  The destructor removes a successor's file.
* C131: the partial record of a connection that is closed because a write failed is kept for ever.
* Reserved and padding bytes of records sent are uninitialised memory.
* `Transceiver::transmit` reads `m_sendBuffer.empty()` without the lock (data race).
* C11: a complete record with an empty body read together with a hang-up is lost; after a write error or a close by kill, other requests of the
  connection stay in the manager's table for ever, so that stop() and join() hang.

Streams
* C125: a record that arrives while an answer is under way (the application waits for a callback) appends a whole error response, header fields included, to the body
  already written: the client sees status 200 and the error's header in the page.
* C59: `put()` bypasses the encoding, as do inserted characters, the padding of fields and one-character sources.  C124: with a standard library whose `flush()` looks at the state
  (GCC 12 and later) what is in the buffer of a failed stream is sent by the destructor, after END_REQUEST, when the web server may have given the id to another request.  C16: an escape that does not fit in the rest of a chunk loops for ever.
* C60, C95: one character that cannot be encoded drops everything buffered, or (chunks) duplicates what had been recorded; the wide
  FcgiStreambuf may hand `codecvt` an inverted range.
* C120: such a character followed by flush() sets badbit: all that the wide request writes afterwards is lost too, and it ends as a success.
* C133: `xsputn` and `dump` ignore that the buffer could not be emptied: up to 8192 characters are lost and the stream says it is good.
* C134: `Sessions::generate` never removes expired sessions: a program that only generates keeps all of them.
* C135: data races: `Transceiver::transmit` tests `m_sendBuffer.empty()` without the lock; `Socket::valid()` against `close()`; `gmtime`/`localtime` share a buffer between log and session stores; the text returned by `expiration()` is overwritten; `Curler::stop`/`terminate` change `m_waking` without the lock; the SQL handler tests `m_queue.empty()` and `queue()` asks `connected()` without the lock; with `FASTCGIPP_LOG_LEVEL > 3` `push` reads `m_requests` after unlocking; `resizeThreads` reads `m_stop` without the lock.
* C136: a constructor (or destructor) of a request that calls `stop()` deadlocks with a handler thread.

HTTP environment
* C119: the value of If-Modified-Since is used whether it could be read or not: `Fri, 01 Jan 9999 never` is a date in the far future, so that the
  document is never sent; the obsolete forms of dates are misread; `mktime(...) - timezone` is wrong for zones whose standard time has changed.
* C132: `atof` reads 1.2.3 as 1.5, and a fraction with more than some 330 digits as a huge number (the multiplier underflows to the value that means "no point yet").
* C22: a query field without '=' swallows its neighbour.  C23, C25: one byte is read past the end of a value (if the record has no padding);
  `atoi` overflows a signed integer.
* The multipart boundary is taken after the first '=' of CONTENT_TYPE: a charset parameter before it, or quotes, break uploads; a boundary of
  dashes only is parsed wrongly; a text part with a Content-Type becomes a file; the first character of a path without leading '/' is lost.
* C108: in wide applications a parameter whose name is not UTF-8 is kept under the empty name, or, cut inside a character, under another parameter's name.
* C35: a language with a NUL byte reads past the locale's name.

Sessions
* C32: `base64Decode` writes one byte past the documented room if '=' begins a group, and accepts garbage after '='.  C61: SessionId of short text has
  uninitialised bytes.  C62: `generate` does not renew the expiration.
* setExpiration reads an uninitialised member in the constructor; the expiration string is a shared buffer; 30 bytes are too few for years of five digits.

Manager
* C42: the loss of the last connection after stop() does not wake the threads: join() hangs.  C63: a request id used again between END_REQUEST and the erase
  loses the new request.  C64: a lost connection destroys a locked mutex (use after free); a short BEGIN_REQUEST is read out of bounds.  C65: a request whose
  connection is lost in a window leaks.
* stop() and terminate() lock a mutex, though they are called by signal handlers (self-deadlock).

Sockets
* C69: accept(true) racing with the refresh in poll() leaves the listeners unpolled for ever.  C70: a failed `poll.add` leaves a dead entry that kills the next
  connection with the same descriptor.  C71: listen() never returns if the first two addresses fail; connect() tries two addresses only.
* start() of a finished but not joined thread does nothing; listen(name) dereferences a null result of getpwnam; `valid()` is read by other threads without
  synchronisation; with no sockets at all poll() returns at once (busy loop).
* C109: with poll(2) (systems without epoll) a busy connection starves those accepted after it.
* C110: a failure of accept() - a client that is gone again, no descriptors left, a listening socket shared with another process - ends the whole program.

Addresses
* C48, C72, C74: several texts outside the grammar are accepted ("1:2:", ":1", groups of more than four digits, octets above 255, text after the address);
  "::1.2.3.4" becomes ::ffff:1.2.3.4; "1:2.3.4.5" leaves bytes unset; reading one byte past the text in some cases; showbase or digit grouping overflow a buffer on the stack;
  `std::copy` to an overlapping range and `start-1` are undefined.  C122: the printed form is not RFC 5952's (the last instead of the first longest run, single zero groups).

SQL
* C50-C52, C76: an empty BYTEA is sent as NULL; a NULL numeric field is read past the end; lengths in arrays are not checked; setNull cannot be undone; arrays
  made by resize() have uninitialised lengths; arrays of 4 GiB overflow the heap.
* C53, C77-C82: a refused query is lost and leaves a dangling iterator; stop() drops queries in progress; a re-run after two losses is out of order; stale results after a re-run;
  wake() blocks under the lock when the socket is full (deadlock); input on an idle connection ends the program; PQflush is called once, so that large queries stall.

Mailer
* C54, C55: no dot-stuffing; an email without recipient is dropped; C84: multi-line replies, 8BITMIME in the last line and lower case are not understood, and a permanent rejection
  blocks the queue for ever; C85: sockets are blocking, so that terminate() may wait for ever; C86: uninitialised variables are used; C87: addresses may inject commands, lines end in a bare LF;
  C88: an idle unconnected mailer spins.  Queueing an Email twice sends an empty one; loss after DATA sends twice.
* C114: a wide address that cannot be converted is ignored: the email goes to the address set before.  C115: destroying a narrow Email after queueing it takes back() of an empty list.

HTTP client
* C56: the room of a read callback is truncated to 32 bits.  C57, C89, C91: a length header after body data (trailers, reuse without reset) resets the memory but not the size: over-read of indeterminate data
  and an exception through C code for 2 GiB responses.  C90: repeated headers are lost.  C92: reset() keeps request headers and encoding.  C93: using an object again, or destroying it, after its body was read takes back() of an empty list.
  C94: characters split between callbacks fail the transfer.
* C58: a callback set while the old one is being called is lost.  C99: queueing a request twice may end the program.  C100: a transfer complete at once (a wrong URL) is never noticed: with one
  transfer at a time the client does nothing more, and stop() never ends it.  C101: sockets are never polled for output.
* `m_waking` is used without the lock by stop() and terminate(); a concurrency of 0 never begins anything; after terminate() and start() the number of running transfers is taken as 0.
* C137: a wide URL that cannot be converted is ignored, and the request goes to the URL set before; `CURLOPT_SSL_VERIFYHOST` is set to 1, which libcurl 7.28.1 to 7.65.3 refuses: after verifySSL(false), verifySSL(true) leaves host names unverified.
* C139: `operator<<(ostream&, Encoding)` casts the buffer with `dynamic_cast` to a pointer and waits for `std::bad_cast`, which only a cast to a reference throws: on any other stream (`std::cout << Encoding::HTML`) it writes through a null pointer.
* C140: affectedRows() gives a count of 2^31 or more to `std::atoi`: undefined behaviour.
* C141: a host or program name that is not UTF-8 is warned of during static initialisation, with `Logging::hostname` and `Logging::program` not yet constructed; a failing `gethostname` leaves the buffer without content.
* C142: two socket groups can both listen on descriptor 0; the first destructor closes it under the other.
* C143: a Curl object queued again after a failed transfer posts only what is left of its data, less the blocks of 4096 bytes already read, without notice.
* C144: Encoding::URL leaves line ends alone: data with an empty line in them, in a header such as Location, end the header part.
* C145: a database name such as `a=b` is parsed by libpq as a connection string; retry intervals above 2147483 s overflow the timeout.
* C146: the session cookie of examples/sessions.cpp loses its session whenever the identifier's text has a '+', because the characters of an identifier are inserted one by one and so not encoded.
* C147: `strftime` uses the global C locale: after `std::locale::global(std::locale(""))` the cookie's expiration is not an HTTP date, or is empty.

Logging
* `Logging::suppress`, documented as suppressing non-error logs, also disables `FAIL_LOG`'s exit, after which the program goes on in the state declared impossible (C113).
* A message with a character the locale cannot encode (an address with a byte ≥ 80, as a peer may send it) ends the log for good (C112).

Callbacks
* C127: a callback is bound to a request id and ids are used again: an answer that arrives after the request that asked has been aborted is handled by the next request of the same id.
* C128: a callback called from the destructor of a request (a member whose destructor reports something, say) never returns, as the destructor runs with the table of requests locked; that lock is held for ever.

Life of a manager and of the helpers
* C123: the HTTP client, the mailer and SQL connections end the program when destroyed after stop() but without join(); start() before join() does nothing even if the thread has ended; stop(), terminate() or queue() before
  start() or init() use variables without a value (an SQL connection writes a byte to any descriptor).
* C116: a manager that was started and not joined ends the program when destroyed, also if it was stopped; resizeThreads() to fewer threads between stop() and join() does so too; after terminate() and join() it does nothing; start() after stop() without join() starts nothing.

## Wrong programs

`seeded/LOG.jsonl` records each edit of the model (in a copy), the claim it breaks and the theorems that fail.  Entries whose result is
`survived` are either behaviour that no claim is about (said in the edit's text) or led to a tightened theorem (named in `tightened`).
