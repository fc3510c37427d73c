{"id": "C01", "title": "Big-endian integers round trip and use network byte order", "statement": "Storing any 16, 32 or 64 bit integer in a BigEndian wrapper and reading it back returns the same integer, and the object representation is the integer's base-256 digits, most significant first; conversely reading any byte array and storing the result reproduces the bytes.", "quantifier": "every value of each width; every byte array of each width", "why_tests_cant": "2^64 values", "anchors": ["include/fastcgi++/endian.hpp: BigEndian::set, BigEndian::read"]}
{"id": "C02", "title": "FastCGI name/value header decoding is exact and stays inside the buffer", "statement": "For every byte buffer, the parameter-header decoder never reads outside [data,dataEnd); it succeeds exactly when the buffer starts with a complete FastCGI name-value pair (1-byte lengths below 128, otherwise 4-byte big-endian lengths with the top bit removed), and then the name, value and end iterators delimit exactly that pair's name and value inside the buffer.", "quantifier": "every byte buffer of every length", "why_tests_cant": "the lengths range over 2^31 values and the buffer content is attacker controlled", "anchors": ["src/protocol.cpp: processParamHeader"]}
{"id": "C03", "title": "Parameter lists round trip", "statement": "If a list of name/value pairs is serialised with the FastCGI name-value encoding (either legal length form), decoding the buffer pair by pair yields exactly the same list, in order, and consumes the whole buffer.", "quantifier": "every list of pairs of byte strings, each of length < 2^31", "why_tests_cant": "unbounded list and string lengths", "anchors": ["src/protocol.cpp: processParamHeader", "src/http.cpp: Environment::fill"]}
{"id": "C04", "title": "Parameters do not depend on how the PARAMS stream is cut into records", "statement": "FastCGI PARAMS is a byte stream: the environment a request sees is the same however the web server cuts that stream into records.", "quantifier": "every pair list and every division of the encoded stream into records", "why_tests_cant": "all split points of all streams", "anchors": ["src/request.cpp: Request::handler", "src/http.cpp: Environment::fill"]}
{"id": "C05", "title": "Record sizes are aligned and never truncated content wrongly", "statement": "For every amount of pending content, the size chosen for an output record is a multiple of 8, leaves room for the 8 byte header and at least min(content,65535) content bytes, wastes fewer than 8 padding bytes, so content length fits 16 bits and padding length fits 8 bits.", "quantifier": "every content size", "why_tests_cant": "boundary conditions at every residue mod 8 and at 0xffff", "anchors": ["src/protocol.cpp: getRecordSize"]}
{"id": "C06", "title": "Management replies are self-consistent records", "statement": "The FCGI_GET_VALUES_RESULT replies for FCGI_MAX_CONNS, FCGI_MAX_REQS and FCGI_MPXS_CONNS are well-formed: header lengths describe exactly the bytes of the record, and its content decodes to the advertised name and value, so a peer that frames by the header stays in sync.", "quantifier": "all three reply constants, whatever follows them in the stream", "why_tests_cant": "a framing error only shows up in what any later bytes are parsed as", "anchors": ["include/fastcgi++/protocol.hpp: ManagementReply", "src/protocol.cpp: maxConnsReply, maxReqsReply, mpxsConnsReply"]}
{"id": "C07", "title": "Management records are each answered once", "statement": "Processing an FCGI_GET_VALUES record terminates and sends exactly one reply per recognised requested name; any other record type with request id 0 is answered by exactly one FCGI_UNKNOWN_TYPE record carrying that type.", "quantifier": "every management record body", "why_tests_cant": "termination over all inputs", "anchors": ["src/manager.cpp: Manager_base::localHandler"]}
{"id": "C08", "title": "Request identifiers are ordered totally and grouped by connection", "statement": "The ordering used for the request table is a strict total order on (socket, FastCGI id); all identifiers of one socket are contiguous and every one of them with id below 0xffff sorts before (socket,0xffff).", "quantifier": "every pair/triple of identifiers", "why_tests_cant": "the whole product space of sockets and ids", "anchors": ["include/fastcgi++/protocol.hpp: RequestId, RequestId::Less"]}
{"id": "C09", "title": "Record delivery does not depend on how reads are fragmented", "statement": "For every byte stream sent by the web server on a connection and every way the kernel fragments it into reads, the messages delivered are exactly the complete records of the stream (header, content, padding), in order, each once, with the connection's socket and the record's request id; a trailing partial record is delivered never.", "quantifier": "every record list, every trailing fragment, every fragmentation into read results (including 0-length would-block reads)", "why_tests_cant": "exponentially many fragmentations of unbounded streams", "anchors": ["src/transceiver.cpp: Transceiver::receive", "src/block.cpp: Block"]}
{"id": "C10", "title": "Connections do not corrupt each other's input", "statement": "Interleaving reads from several sockets, the messages delivered for a socket depend only on the bytes read from that socket.", "quantifier": "every interleaving of reads over any set of sockets", "why_tests_cant": "all interleavings", "anchors": ["src/transceiver.cpp: Transceiver::receive, m_receiveBuffers"]}
{"id": "C11", "title": "A closing connection is announced exactly once and its partial input discarded", "statement": "When a read or a write on a connection fails or the peer hangs up, every record that arrived completely before is delivered, the partial record is discarded, exactly one 'connection gone' message (id 0xffff) is delivered for that socket and the socket is no longer valid; a later connection that reuses state starts from an empty buffer.", "quantifier": "every read history ending in an error or hang-up", "why_tests_cant": "all histories", "anchors": ["src/transceiver.cpp: Transceiver::receive, Transceiver::cleanupSocket"]}
{"id": "C12", "title": "Output stream content is preserved in order", "statement": "With encoding NONE, for any sequence of insertions, single-character puts, flushes and raw dumps to a request's output stream, the concatenated content of the records sent once flushed is exactly the concatenation of the data written, in order.", "quantifier": "every sequence of write operations with arbitrary data sizes", "why_tests_cant": "buffer-boundary interactions for unbounded operation sequences", "anchors": ["src/fcgistreambuf.cpp: FcgiStreambuf::emptyBuffer, dump", "src/webstreambuf.cpp: WebStreambuf::xsputn, overflow, sync"]}
{"id": "C13", "title": "Every output record is well formed", "statement": "Every record emitted by an output stream has version 1, the stream's type, the request's FastCGI id, a content length between 1 and 65535 equal to the content it carries, a padding length below 8, and a total size that is a multiple of 8; it is addressed to the request's socket and does not ask for the connection to be closed.", "quantifier": "every sequence of write operations", "why_tests_cant": "unbounded sequences and sizes", "anchors": ["src/fcgistreambuf.cpp: emptyBuffer, dump", "src/protocol.cpp: getRecordSize"]}
{"id": "C14", "title": "HTML encoding neutralises markup and loses nothing", "statement": "With encoding HTML, the bytes output for an inserted string never contain an unescaped quote, apostrophe or angle bracket, every & starts one of the five entities, and replacing the entities gives back the inserted string; the result does not depend on how the insertions are split or where buffer boundaries fall.", "quantifier": "every string and every split into insertions", "why_tests_cant": "all strings; boundaries at every buffer offset", "anchors": ["src/webstreambuf.cpp: htmlCharacters, xsputn", "include/fastcgi++/webstreambuf.hpp"]}
{"id": "C15", "title": "URL encoding inverts URL decoding", "statement": "With encoding URL, the output for an inserted string contains none of the reserved characters, and percent-decoding it returns the inserted string.", "quantifier": "every byte string", "why_tests_cant": "all strings; buffer boundaries", "anchors": ["src/webstreambuf.cpp: urlCharacters, xsputn", "src/http.cpp: percentEscapedToRealBytes"]}
{"id": "C16", "title": "Chunked stream buffers keep all data and insertion terminates", "statement": "Inserting any data with any encoding into a chunked stream buffer (used for emails and HTTP request bodies) terminates, after a flush the concatenation of the chunks is the encoded data, every chunk but the last is full and no chunk exceeds its capacity.", "quantifier": "every sequence of insertions and encodings", "why_tests_cant": "termination at every buffer offset", "anchors": ["src/chunkstreambuf.cpp", "include/fastcgi++/chunkstreambuf.hpp", "src/webstreambuf.cpp: xsputn"]}
{"id": "C17", "title": "Queued records reach each socket completely and in order", "statement": "For every sequence of queued records and every pattern of short writes by the kernel, the bytes accepted by a healthy socket are a prefix of the concatenation of the records queued for it, in queue order, no byte duplicated or skipped; when the transmit step reports that the queue is empty it is the whole concatenation.", "quantifier": "every queue content and every sequence of write results", "why_tests_cant": "all short-write patterns", "anchors": ["src/transceiver.cpp: Transceiver::transmit, send"]}
{"id": "C18", "title": "Concurrent senders cannot tear or reorder records", "statement": "With any number of threads queueing records while the transmit loop runs, in every interleaving each record is transmitted contiguously, and two records queued one after the other by the same thread for the same socket are transmitted in that order.", "quantifier": "every interleaving of send calls with transmit steps", "why_tests_cant": "all schedules", "anchors": ["src/transceiver.cpp: send, transmit, m_sendBufferMutex"]}
{"id": "C19", "title": "A connection is closed only after its final record is fully written", "statement": "A record queued with the 'kill' flag causes its connection to be closed, and not before its last byte (and every byte queued before it for that socket) has been accepted by the kernel or the socket has failed.", "quantifier": "every queue and every write pattern", "why_tests_cant": "all short-write patterns", "anchors": ["src/transceiver.cpp: transmit"]}
{"id": "C20", "title": "Percent decoding is memory safe and never grows", "statement": "Decoding any byte range writes at most as many bytes as it reads, stays inside the destination, terminates, maps + to space, %XX to the byte XX and every ordinary character to itself.", "quantifier": "every byte string", "why_tests_cant": "all malformed escapes at all positions", "anchors": ["src/http.cpp: percentEscapedToRealBytes"]}
{"id": "C21", "title": "URL-encoded forms, queries and cookies round trip", "statement": "Encoding any list of name/value pairs in application/x-www-form-urlencoded form (or cookie form) and decoding it yields the map holding exactly those pairs (multi-map for forms and queries).", "quantifier": "every list of pairs with arbitrary bytes", "why_tests_cant": "unbounded lists, all byte values", "anchors": ["src/http.cpp: decodeUrlEncoded"]}
{"id": "C22", "title": "Query parsing treats every field independently", "statement": "For every query string, splitting at the separators and decoding each field on its own gives the same result as decoding the whole; a field without '=' does not swallow its neighbours.", "quantifier": "every query string", "why_tests_cant": "all malformed strings", "anchors": ["src/http.cpp: decodeUrlEncoded"]}
{"id": "C23", "title": "Decimal integers in headers are parsed exactly", "statement": "Parsing the decimal representation of any int-range number returns that number; parsing stops at the first non digit; the parser reads only its input range.", "quantifier": "every byte range", "why_tests_cant": "all ranges incl. empty and overlong ones", "anchors": ["src/http.cpp: atoi"]}
{"id": "C24", "title": "Environment variables are dispatched by name and the last value wins", "statement": "After processing any list of parameters, each well known variable (host, script name, user agent, request URI, remote/server address and port, content length, ...) equals the decoding of the last value given under its FastCGI name (query fields, cookies, path segments and languages collect the values of every occurrence in order), and every other parameter is available unchanged under its own name; a parameter never affects a variable with a different name.", "quantifier": "every list of parameters", "why_tests_cant": "all orders, duplicates and values", "anchors": ["src/http.cpp: Environment::fill"]}
{"id": "C25", "title": "Path info segments round trip", "statement": "For a PATH_INFO made by joining non-empty percent-encoded segments each preceded by '/', the path info vector is exactly those segments, and parsing reads only the value.", "quantifier": "every list of segments", "why_tests_cant": "unbounded lists, all bytes", "anchors": ["src/http.cpp: Environment::fill (PATH_INFO)"]}
{"id": "C26", "title": "Accept-Language lists are parsed into locale tags", "statement": "For an Accept-Language value built from tags with optional quality and surrounding spaces, the accepted language list is the tags in order with the first '-' turned into '_' ; parsing any value terminates and stays in bounds.", "quantifier": "every header value", "why_tests_cant": "all header values", "anchors": ["src/http.cpp: Environment::fill (HTTP_ACCEPT_LANGUAGE)"]}
{"id": "C27", "title": "Request methods are recognised exactly", "statement": "The request method is the one named by REQUEST_METHOD iff the value is one of the method names; the printed label of each method parses back to it; any other value is reported as error.", "quantifier": "every byte string", "why_tests_cant": "all strings", "anchors": ["src/http.cpp: Environment::fill (REQUEST_METHOD), requestMethodLabels"]}
{"id": "C28", "title": "POST data is accumulated independently of record boundaries", "statement": "The POST body seen by the application is the concatenation of the STDIN record contents, whatever the record boundaries, as long as it does not exceed the announced content length.", "quantifier": "every division of the body into records", "why_tests_cant": "all divisions", "anchors": ["src/http.cpp: fillPostBuffer, parsePostBuffer", "src/request.cpp: handler"]}
{"id": "C29", "title": "Multipart forms round trip", "statement": "A multipart/form-data body built from any list of text fields and files whose contents do not contain the boundary parses to exactly those fields and files (names, file names, content types and bytes).", "quantifier": "every list of parts", "why_tests_cant": "unbounded lists, binary contents", "anchors": ["src/http.cpp: parsePostsMultipart"]}
{"id": "C30", "title": "Multipart parsing is total and memory safe", "statement": "Parsing any POST body against any boundary terminates and never reads outside the body.", "quantifier": "every body and boundary", "why_tests_cant": "attacker-controlled bytes", "anchors": ["src/http.cpp: parsePostsMultipart"]}
{"id": "C31", "title": "Base64 round trips", "statement": "Decoding the base64 encoding of any byte string returns it; the encoding has length 4*ceil(n/3) and uses only the 64 characters and '=' padding.", "quantifier": "every byte string", "why_tests_cant": "unbounded", "anchors": ["include/fastcgi++/http.hpp: base64Encode, base64Decode"]}
{"id": "C32", "title": "Base64 decoding of arbitrary text stays in bounds", "statement": "Decoding any text writes at most 3/4 of its length and reads only the text; text with a foreign character or bad length is rejected.", "quantifier": "every character string", "why_tests_cant": "attacker-controlled text", "anchors": ["include/fastcgi++/http.hpp: base64Decode"]}
{"id": "C33", "title": "Session identifiers round trip through their printed form", "statement": "Printing any session identifier and constructing an identifier from the printed text yields an equal identifier; printed forms of different identifiers differ.", "quantifier": "every identifier", "why_tests_cant": "2^120 identifiers", "anchors": ["include/fastcgi++/http.hpp: SessionId", "src/http.cpp: SessionId"]}
{"id": "C34", "title": "The session store never returns an expired or foreign session", "statement": "In every history of generate/get/erase with a monotone clock, get(id) returns the data stored under id iff it was generated, not erased and not expired; generated identifiers are distinct from all live ones; a successful get extends the life.", "quantifier": "every operation history and clock", "why_tests_cant": "unbounded histories", "anchors": ["include/fastcgi++/http.hpp: Sessions"]}
{"id": "C35", "title": "Locale choice follows the client's preference", "statement": "The chosen locale is the first server locale matching the earliest accepted language that matches any, and the default otherwise.", "quantifier": "every accepted language list and locale list", "why_tests_cant": "all lists", "anchors": ["src/request.cpp: Request::pickLocale"]}
{"id": "C36", "title": "A request answers exactly once, after its input is complete", "statement": "Any sequence of records and callback messages is handled without undefined behaviour; for every sequence delivered to a request, an END_REQUEST record is sent at most once and nothing is sent after it; response() is called with a FastCGI record only once the input (parameters and data, each ended by an empty record) is complete; callback messages are passed to response() whenever they arrive.", "quantifier": "every message sequence and every behaviour of the user's handlers", "why_tests_cant": "all histories", "anchors": ["src/request.cpp: Request::handler, complete"]}
{"id": "C37", "title": "POST size limit is enforced", "statement": "If the announced content length exceeds the limit, or more data arrives than announced, the application's response handler is never called with that data: the request is finished with the 413 handler; buffered POST data never exceeds the limit.", "quantifier": "every message sequence", "why_tests_cant": "all histories", "anchors": ["src/request.cpp: handler", "src/http.cpp: fillPostBuffer"]}
{"id": "C38", "title": "Unsupported roles and out-of-order records are refused", "statement": "A request whose role is neither RESPONDER nor AUTHORIZER ends with UNKNOWN_ROLE; a record arriving in the wrong phase ends the request through the error handler; an ABORT ends the request at once.", "quantifier": "every message sequence", "why_tests_cant": "all histories", "anchors": ["src/request.cpp: handler"]}
{"id": "C39", "title": "END_REQUEST is a well-formed record", "statement": "Completion flushes both output streams and sends one END_REQUEST record with the request's id, content length 8, the protocol status, and the keep-connection decision of the web server.", "quantifier": "every request", "why_tests_cant": "all requests", "anchors": ["src/request.cpp: complete"]}
{"id": "C40", "title": "No message is lost between concurrent handler threads", "statement": "In every interleaving of any number of handler threads with the receiver pushing messages, every message accepted for a live request is handled: whenever no thread is working on a request and its message queue is non-empty, a task for it is pending.", "quantifier": "every number of threads and every schedule", "why_tests_cant": "all schedules", "anchors": ["src/manager.cpp: Manager_base::handler, push"]}
{"id": "C41", "title": "A request is handled by one thread at a time, in arrival order", "statement": "In every interleaving at most one thread runs a given request's handler, and its messages are processed in the order they arrived.", "quantifier": "every number of threads and schedule", "why_tests_cant": "all schedules", "anchors": ["src/manager.cpp: handler, push", "include/fastcgi++/request.hpp: m_mutex"]}
{"id": "C42", "title": "Graceful stop drains the requests", "statement": "After stop(), handler threads finish only when no requests remain, and once no requests remain every handler thread finishes (join returns).", "quantifier": "every schedule", "why_tests_cant": "all schedules", "anchors": ["src/manager.cpp: stop, handler, push, join"]}
{"id": "C43", "title": "A dropped connection removes exactly its own requests", "statement": "When a connection is lost, all of its requests that are not being worked on are removed, and no request of another connection is affected.", "quantifier": "every table of requests", "why_tests_cant": "all tables", "anchors": ["src/manager.cpp: push"]}
{"id": "C44", "title": "Only BEGIN_REQUEST creates requests", "statement": "For every message history, a request exists for (socket,id) only if a BEGIN_REQUEST for it was received after its last completion; other records for unknown ids are dropped, and ids in use are not overwritten.", "quantifier": "every message history", "why_tests_cant": "all histories", "anchors": ["src/manager.cpp: push"]}
{"id": "C45", "title": "Wake-ups are not lost", "statement": "In every interleaving of wake() calls with the poll loop, after a wake() the poll loop returns (at least once) rather than sleeping; the wake channel never accumulates more than one pending byte.", "quantifier": "every schedule", "why_tests_cant": "all schedules", "anchors": ["src/sockets.cpp: SocketGroup::wake, poll"]}
{"id": "C46", "title": "Socket handles share one connection and close it once", "statement": "For every history of copying, moving, closing and destroying socket handles, the underlying descriptor is closed at most once, handles of a closed connection are invalid, and I/O on an invalid handle does no system call.", "quantifier": "every history of handle operations", "why_tests_cant": "all histories", "anchors": ["src/sockets.cpp: Socket", "include/fastcgi++/sockets.hpp: Socket"]}
{"id": "C47", "title": "Printing and parsing an address are inverse", "statement": "For every 128-bit address, parsing its printed form returns the address.", "quantifier": "all 2^128 addresses", "why_tests_cant": "2^128", "anchors": ["src/address.cpp: assign, operator<<"]}
{"id": "C48", "title": "Address text parsing is exact and in bounds", "statement": "Dotted IPv4 text a.b.c.d yields ::ffff:a.b.c.d, canonical IPv6 text yields the written groups, text with foreign characters yields the zero address, and no text causes an out-of-bounds access.", "quantifier": "every character string", "why_tests_cant": "all strings", "anchors": ["src/address.cpp: assign"]}
{"id": "C49", "title": "Address comparison and masking follow the byte order", "statement": "Equality, ordering and masking of addresses are those of the 16 bytes: ordering is a strict total order; masking is byte-wise and; an address converts to false iff it is all zero.", "quantifier": "all addresses", "why_tests_cant": "2^256 pairs", "anchors": ["src/address.cpp", "include/fastcgi++/address.hpp"]}
{"id": "C50", "title": "SQL parameters decode to the value encoded", "statement": "For every supported scalar type, the wire form of a parameter has the exact documented length/OID and reading a result column holding those bytes returns the same value.", "quantifier": "every value of every supported type", "why_tests_cant": "all values", "anchors": ["src/parameters.cpp", "include/fastcgi++/sql/parameters.hpp", "src/results.cpp", "include/fastcgi++/sql/results.hpp"]}
{"id": "C51", "title": "SQL arrays round trip", "statement": "For every array parameter, decoding its wire form as the corresponding result array returns the same elements, and the wire form is a valid PostgreSQL one-dimensional array without nulls.", "quantifier": "every vector of every supported element type", "why_tests_cant": "unbounded vectors", "anchors": ["src/parameters.cpp", "include/fastcgi++/sql/parameters.hpp", "src/results.cpp"]}
{"id": "C52", "title": "SQL array verification makes element access safe", "statement": "A result array accepted by verification can be read element by element without leaving the received buffer.", "quantifier": "every byte string returned by the server", "why_tests_cant": "all byte strings", "anchors": ["src/results.cpp: verify, field"]}
{"id": "C53", "title": "SQL queries are executed in queue order and called back once", "statement": "In every history, queries accepted by the connection object are dispatched in order, no query is run on two connections at once, and every accepted query's callback is called exactly once, including across connection loss and stop().", "quantifier": "every history of queue, results, connection failures and stop", "why_tests_cant": "all histories", "anchors": ["src/connection.cpp"]}
{"id": "C54", "title": "Emails are delivered in order and retried until acknowledged", "statement": "For every sequence of server responses and connection failures, an email is removed only after the server acknowledged its data with 250; until then it is retried; emails are attempted in the order queued.", "quantifier": "every history of server replies and failures", "why_tests_cant": "all histories", "anchors": ["src/mailer.cpp"]}
{"id": "C55", "title": "Message data cannot break out of the SMTP DATA phase", "statement": "For every email body, the bytes transmitted in the DATA phase contain the end-of-data mark only at the end.", "quantifier": "every email body", "why_tests_cant": "all bodies", "anchors": ["src/mailer.cpp", "src/email.cpp"]}
{"id": "C56", "title": "HTTP client request body is the data written", "statement": "The bytes handed to the transfer library by successive read callbacks, whatever buffer sizes it offers, concatenate to the POST data written to the Curl object.", "quantifier": "every body and every sequence of buffer sizes", "why_tests_cant": "all sequences", "anchors": ["src/curl.cpp: readCallback", "include/fastcgi++/chunkstreambuf.hpp"]}
{"id": "C57", "title": "HTTP client response body is the data received", "statement": "However the response body is fragmented into write callbacks, the response data available to the user is the concatenation of the fragments, and every callback reports full consumption.", "quantifier": "every body and fragmentation, with and without Content-Length", "why_tests_cant": "all fragmentations", "anchors": ["src/curl.cpp: injectResponse, headerCallback, writeCallback"]}
{"id": "C58", "title": "HTTP client concurrency is bounded and every transfer calls back once", "statement": "In every history at most the configured number of transfers are in progress, transfers start in the order queued and each completed transfer's callback is called exactly once.", "quantifier": "every history", "why_tests_cant": "all histories", "anchors": ["src/curler.cpp"]}
{"id": "C59", "title": "Characters written one at a time are encoded too", "statement": "With encoding HTML or URL selected, a character written to an output stream through the single-character interface (put) is encoded exactly as when it is inserted as a string.", "quantifier": "every character, encoding and position in the buffer", "why_tests_cant": "all buffer offsets and histories", "anchors": ["src/webstreambuf.cpp: WebStreambuf::overflow, xsputn"]}
{"id": "C60", "title": "Wide output streams send the UTF-8 encoding of the text written", "statement": "For a wide-character output stream, the concatenated content of the records sent once flushed is the UTF-8 encoding of the characters written (and raw dumps unchanged), in order, whatever the sizes; and a character that cannot be encoded loses at most itself.", "quantifier": "every sequence of write operations on a wide stream", "why_tests_cant": "buffer boundaries, multi-byte characters, unbounded sequences", "anchors": ["src/fcgistreambuf.cpp: FcgiStreambuf<wchar_t>::emptyBuffer", "src/webstreambuf.cpp"]}
{"id": "C61", "title": "A session identifier made from text depends only on the text", "statement": "Constructing a SessionId from any text is memory safe and the identifier's bytes are a function of the text alone: in particular a malformed or empty cookie never yields the identifier of somebody's session.", "quantifier": "every text (and every previous content of memory)", "why_tests_cant": "depends on uninitialised memory and unbounded texts", "anchors": ["src/http.cpp: SessionId(const charT* data, size_t size)", "include/fastcgi++/http.hpp: base64Decode"]}
{"id": "C62", "title": "The cookie expiration offered is not before the session's expiry", "statement": "At all times the expiration text offered by Sessions for use in a cookie is not before the moment at which a session just generated or fetched would expire.", "quantifier": "every history of calls and clock readings", "why_tests_cant": "depends on elapsed time and histories", "anchors": ["include/fastcgi++/http.hpp: Sessions::generate, get, setExpiration, expiration"]}
{"id": "C63", "title": "A request id can be reused as soon as the request is over", "statement": "Once END_REQUEST has been sent for a request, a BEGIN_REQUEST record with the same id starts a new request, whatever the threads are doing.", "quantifier": "every schedule", "why_tests_cant": "a race between two threads", "anchors": ["src/manager.cpp: Manager_base::handler, push"]}
{"id": "C64", "title": "The manager's threads use no destroyed request and read nothing they do not own", "statement": "In every interleaving of the handler threads, messages, lost connections and stops, no request object is used after destruction, none is destroyed while a mutex of it is locked, and no record is read past its end.", "quantifier": "every number of threads, schedule and history of messages", "why_tests_cant": "all schedules", "anchors": ["src/manager.cpp: handler, push", "include/fastcgi++/request.hpp: Request_base", "src/request.cpp: handler"]}
{"id": "C65", "title": "No request of a lost connection stays", "statement": "After the loss of a connection has been handled and the threads have come to rest, no request of that connection exists.", "quantifier": "every schedule", "why_tests_cant": "a race between two threads", "anchors": ["src/manager.cpp: handler, push"]}
{"id": "C66", "title": "The manager's threads never deadlock and always come to rest", "statement": "In every interleaving, if no thread can move then every handler thread waits for tasks or has ended and every push has returned; and without new messages the threads come to rest after finitely many steps.", "quantifier": "every number of threads and schedule", "why_tests_cant": "all schedules", "anchors": ["src/manager.cpp: handler, push, start, stop, terminate"]}
{"id": "C67", "title": "Everything sent is written, in order, without waiting for other traffic", "statement": "Records passed to Transceiver::send() by any threads are written to the sockets in the order queued, each once, and whenever all threads have come to rest nothing is left in the queue: no record waits for unrelated traffic while the transceiver's thread sleeps.", "quantifier": "every number of sending threads, every schedule, every sequence of partial writes", "why_tests_cant": "all schedules", "anchors": ["src/transceiver.cpp: handler, transmit, send", "src/sockets.cpp: wake, poll"]}
{"id": "C68", "title": "The transceiver's thread ends exactly when asked", "statement": "The transceiver's thread ends only after terminate(), or after stop() once there are no connections; and if that is the case and all threads have come to rest, it has ended.", "quantifier": "every schedule", "why_tests_cant": "all schedules", "anchors": ["src/transceiver.cpp: handler, stop, terminate, start", "src/sockets.cpp: accept, wake"]}
{"id": "C69", "title": "Connections are let in after start() and not after stop()", "statement": "After stop() has returned no connection is let in any more; after start() the listening sockets are polled, so that connections are let in, whatever calls of start() and stop() were made before.", "quantifier": "every history of calls and schedule", "why_tests_cant": "a race between two threads", "anchors": ["src/transceiver.cpp: start, stop", "src/sockets.cpp: accept, poll, createSocket"]}
{"id": "C70", "title": "An established connection is usable", "statement": "A connection established by accept or connect() is open and part of the group until it is closed by a user or its peer, connect() returns a valid handle of it, and the group counts exactly the open connections.", "quantifier": "every history of connections, descriptor reuse and failures", "why_tests_cant": "depends on descriptor reuse", "anchors": ["src/sockets.cpp: Socket, close, connect, createSocket"]}
{"id": "C71", "title": "Every address found by the resolver is tried", "statement": "listen(interface, service) and connect(host, service) try the addresses found by the resolver in order, use the first that works and report failure if none does.", "quantifier": "every number of addresses and every set of working ones", "why_tests_cant": "depends on the resolver's answer", "anchors": ["src/sockets.cpp: listen, connect"]}
{"id": "C72", "title": "Printing an address stays in its buffer", "statement": "Inserting an address into a stream never writes outside the inserter's buffer.", "quantifier": "every address and every setting of the stream", "why_tests_cant": "needs unusual stream settings", "anchors": ["src/address.cpp: operator<<"]}
{"id": "C73", "title": "Addresses obey width, fill and alignment", "statement": "An address inserted into a stream is padded with the fill character to the field width, on the side the alignment asks for, and is never cut.", "quantifier": "every address, width, fill and alignment", "why_tests_cant": "2^128 addresses", "anchors": ["src/address.cpp: operator<<"]}
{"id": "C74", "title": "Extraction of an address reads exactly its text", "statement": "Extracting an address from a stream consumes exactly the text of the address and yields it; what was inserted is read back; a failed extraction leaves the address as it was; no input causes an access out of bounds or use of unset memory.", "quantifier": "every stream content", "why_tests_cant": "all strings", "anchors": ["src/address.cpp: operator>>"]}
{"id": "C75", "title": "Result verification names the first wrong column", "statement": "Results::verify() returns 0 exactly if the number of columns is that of the types and every column has the type and size of its C++ type; otherwise -1 for a wrong number of columns, or the number (from 1) of the first column of a wrong type.", "quantifier": "every list of types and every result", "why_tests_cant": "all combinations of types", "anchors": ["include/fastcgi++/sql/results.hpp: verify, verify_impl", "include/sqlTraits.hpp"]}
{"id": "C76", "title": "Each SQL parameter reaches the server as its value or as NULL", "statement": "A parameter of a query is sent as NULL exactly if it was set to null, and otherwise with its value.", "quantifier": "every value of every type", "why_tests_cant": "all values", "anchors": ["include/fastcgi++/sql/parameters.hpp: build_impl, setNull"]}
{"id": "C77", "title": "No accepted SQL query waits while a connection is idle", "statement": "Whenever the SQL thread has come to rest and no wake-up is under way, queries wait only if every connection is busy; a query accepted while the thread sleeps wakes it.", "quantifier": "every number of threads, schedule and history of connections", "why_tests_cant": "all schedules", "anchors": ["src/connection.cpp: handler, queue, wake"]}
{"id": "C78", "title": "queue() and the SQL thread never block each other for ever", "statement": "Whatever is queued by whichever threads, queue() returns and the SQL thread goes on: neither waits for the other for ever.", "quantifier": "every schedule and number of queued queries", "why_tests_cant": "needs more calls at once than the wake-up socket has room for", "anchors": ["src/connection.cpp: queue, wake, handler"]}
{"id": "C79", "title": "Nothing the database does brings down the process", "statement": "Whatever the database server sends, and whenever connections fail or are lost, the process is not ended and has no undefined behaviour.", "quantifier": "every sequence of events on the connections", "why_tests_cant": "all event sequences", "anchors": ["src/connection.cpp: handler, kill"]}
{"id": "C80", "title": "Results at an SQL callback are those of the execution that completed", "statement": "When a query's callback is called, its Results object holds the result of the query's last execution.", "quantifier": "every history including lost connections", "why_tests_cant": "needs a loss between result and completion", "anchors": ["src/connection.cpp: handler, kill"]}
{"id": "C81", "title": "stop() and terminate() end the SQL thread, and only they", "statement": "The SQL thread ends only after stop() or terminate(); after terminate(), and after stop() once no queries are waiting, it does not stay asleep and ends.", "quantifier": "every schedule", "why_tests_cant": "all schedules", "anchors": ["src/connection.cpp: handler, stop, terminate, wake"]}
{"id": "C82", "title": "A query given to a connection is sent completely", "statement": "If the socket does not take a query at once the rest is sent when the socket can take more.", "quantifier": "every query size and socket behaviour", "why_tests_cant": "depends on buffer sizes", "anchors": ["src/connection.cpp: handler"]}
{"id": "C83", "title": "stop() drains the mailer", "statement": "Unless terminate() is called, when the mailer's thread ends every email queued before that has a recipient has been handed to the server and acknowledged, in the order queued.", "quantifier": "every history of queue(), stop(), server replies and connection failures", "why_tests_cant": "all histories", "anchors": ["src/mailer.cpp: handler, stop, terminate"]}
{"id": "C84", "title": "A willing server gets every email", "statement": "If the SMTP server agrees to everything (in any way RFC 5321 permits), every queued email is transmitted and acknowledged, one session after another.", "quantifier": "every list of emails and every form of positive replies", "why_tests_cant": "unbounded lists and reply texts", "anchors": ["src/mailer.cpp: handler"]}
{"id": "C85", "title": "stop() and terminate() end the mailer's thread, and nothing else does", "statement": "The mailer's thread ends only after stop() or terminate(); after terminate() it ends without waiting for the server; after stop() it ends as soon as nothing is left to send; no wake-up is lost.", "quantifier": "every interleaving of the calls with the thread, every server behaviour", "why_tests_cant": "all schedules", "anchors": ["src/mailer.cpp: handler, stop, terminate, queue", "src/sockets.cpp: SocketGroup::poll, wake"]}
{"id": "C86", "title": "The mailer has no undefined behaviour whatever the server does", "statement": "For every history of calls, server replies and connection failures the mailer uses no indeterminate value and no character of an empty string.", "quantifier": "every history", "why_tests_cant": "depends on uninitialised memory and all histories", "anchors": ["src/mailer.cpp: handler"]}
{"id": "C87", "title": "Every command of the mailer is one SMTP command line", "statement": "Whatever the addresses of the emails, what is sent to the server outside the DATA phase is a sequence of lines ended by CRLF, one for each command of the protocol, and nothing else.", "quantifier": "every email and every history", "why_tests_cant": "all addresses", "anchors": ["src/mailer.cpp: handler"]}
{"id": "C88", "title": "An idle mailer sleeps", "statement": "When the mailer has nothing to send its thread waits in the operating system and uses no processor time until it is woken.", "quantifier": "every history", "why_tests_cant": "a liveness property of the loop", "anchors": ["src/mailer.cpp: handler", "src/sockets.cpp: SocketGroup::poll"]}
{"id": "C89", "title": "The HTTP client never reads outside its response buffer", "statement": "Whatever header lines and body pieces a server sends, the client uses only memory of its response buffer, and data()/dataSize() describe initialised characters of it.", "quantifier": "every sequence of header and body callbacks", "why_tests_cant": "all servers", "anchors": ["src/curl.cpp: injectResponse, injectHeader", "include/fastcgi++/curl.hpp: Curl::data, Curl::dataSize"]}
{"id": "C90", "title": "HTTP client response headers are the headers received", "statement": "Every header line of the response appears in headers(), with its name (before the colon) and its value without surrounding blanks; nothing else appears there.", "quantifier": "every sequence of lines", "why_tests_cant": "all lines", "anchors": ["src/curl.cpp: headerCallback, injectHeader"]}
{"id": "C91", "title": "No response header makes the HTTP client throw", "statement": "The callbacks given to the transfer library (which is C code) let no exception out, whatever a server sends, and report every line as consumed.", "quantifier": "every header line", "why_tests_cant": "all lines", "anchors": ["src/curl.cpp: headerCallback, injectHeader"]}
{"id": "C92", "title": "reset() makes a Curl object as new", "statement": "After reset() a Curl object behaves like a newly constructed one.", "quantifier": "every earlier use", "why_tests_cant": "all histories of an object", "anchors": ["src/curl.cpp: reset, open", "src/chunkstreambuf.cpp: clear"]}
{"id": "C93", "title": "A Curl object can be destroyed or queued again after its request", "statement": "After a request is complete the object can be destroyed, or queued again, without undefined behaviour.", "quantifier": "every request body and every way it is read", "why_tests_cant": "all bodies and buffer sizes", "anchors": ["src/curl.cpp: prepare, readCallback", "src/chunkstreambuf.cpp: emptyBuffer", "include/fastcgi++/chunkstreambuf.hpp: ~ChunkStreamBuf"]}
{"id": "C94", "title": "Wide HTTP client responses are the text received", "statement": "However a UTF-8 response is fragmented into callbacks, the data of a wide Curl object are the text, and every callback reports full consumption.", "quantifier": "every text and fragmentation", "why_tests_cant": "all fragmentations", "anchors": ["src/curl.cpp: StreamBuf<wchar_t>::injectResponse"]}
{"id": "C95", "title": "Wide chunk buffers hold the UTF-8 of what was written", "statement": "After a flush the chunks of a wide Email or Curl object hold exactly the UTF-8 encoding of the text written, whatever the sizes of the insertions and the encodings set.", "quantifier": "every sequence of stream operations", "why_tests_cant": "all sequences", "anchors": ["src/chunkstreambuf.cpp: ChunkStreamBuf<wchar_t>::emptyBuffer"]}
{"id": "C96", "title": "HTTP client request headers", "statement": "The headers sent with a request are exactly those added with addHeader(), in the order added.", "quantifier": "every list of headers and every use of the stream", "why_tests_cant": "all lists", "anchors": ["src/curl.cpp: addHeader, prepare"]}
{"id": "C97", "title": "stop() drains the HTTP client", "statement": "Unless terminate() is called, when the HTTP client's thread ends after stop() every request queued has been carried out and its callback called; and the thread does end when they are.", "quantifier": "every history of queue(), stop(), completions", "why_tests_cant": "all histories", "anchors": ["src/curler.cpp: handler, stop, terminate"]}
{"id": "C98", "title": "The HTTP client's thread ends only when asked to and loses no wake-up", "statement": "The thread ends only after stop() or terminate(); after terminate() it ends in a bounded number of its own steps; it never sleeps while a request could be begun or while it should end.", "quantifier": "every interleaving of queue(), stop(), terminate(), start() with the thread", "why_tests_cant": "all schedules", "anchors": ["src/curler.cpp: handler, wake, queue, stop, terminate, start"]}
{"id": "C99", "title": "Queueing a request never ends the program", "statement": "Whatever requests are queued, and however often, the HTTP client does not end the program.", "quantifier": "every history", "why_tests_cant": "all histories", "anchors": ["src/curler.cpp: handler, queue"]}
{"id": "C100", "title": "Every completed transfer is noticed", "statement": "When the transfer of a request is complete (also when it fails at once) the HTTP client's thread takes note of it before it sleeps again.", "quantifier": "every history, every moment of completion", "why_tests_cant": "depends on timing", "anchors": ["src/curler.cpp: handler"]}
{"id": "C101", "title": "The HTTP client polls sockets for what the transfer library asks", "statement": "Each socket of the transfer library is polled exactly for the events the library asked for last.", "quantifier": "every history of the library's requests", "why_tests_cant": "all histories", "anchors": ["src/curler.cpp: socketCallback", "src/poll.cpp: Poll::add, del"]}
{"id": "C102", "title": "A server answers every request exactly as the request alone would", "statement": "Take any number of handler threads, connections and requests. At every moment the records a peer has received for a request id (begun once on that connection, parameters encoded as the FastCGI specification says) are a prefix of what a request on its own, given the records the peer sent for that id in order, sends; whenever nothing is left to do and the connection is open they are all of it; everything sent is whole records; and on a calm connection with one request the bytes are exact and the connection is closed exactly if the request is complete and FCGI_KEEP_CONN was not set.", "quantifier": "every interleaving of the receiving thread, handler threads and push() calls; every fragmentation of reads and writes; every set of other requests and connections", "why_tests_cant": "all schedules of threads and kernel behaviour", "anchors": ["src/transceiver.cpp: handler, transmit, receive, send", "src/manager.cpp: handler, push", "src/request.cpp: handler, complete, record"]}
{"id": "C103", "title": "Every request id is served", "statement": "A request begun with any id from 1 to 65535 is served, and a record with an id for which nothing was begun does not affect other requests.", "quantifier": "every history of records", "why_tests_cant": "65535 is one of all ids", "anchors": ["include/fastcgi++/protocol.hpp: badFcgiId", "src/manager.cpp: handler, push", "src/transceiver.cpp: receive"]}
{"id": "C104", "title": "A peer that does not read does not hold up the others", "statement": "If the peer of one connection does not read what is sent to it, what is sent to other connections is still written to them.", "quantifier": "every history, every stalled peer", "why_tests_cant": "needs a full socket buffer and all continuations", "anchors": ["src/transceiver.cpp: transmit"]}
{"id": "C105", "title": "Requests go only for a reason", "statement": "A request that has been created is served until its handler reports completion, or its connection is closed or reported lost; and a connection is reported lost only if the peer hung up, or reading or writing failed, or a record with id 65535 arrived.", "quantifier": "every schedule and history", "why_tests_cant": "all schedules", "anchors": ["src/manager.cpp: handler, push", "src/transceiver.cpp: receive"]}
{"id": "C106", "title": "SIGUSR1 stops and SIGTERM terminates the server", "statement": "After setupSignals() SIGUSR1 makes the manager stop (every request received is served first) and SIGTERM makes it terminate, whichever thread the kernel delivers the signal to and at whatever moment.", "quantifier": "every interleaving, every moment of delivery, every thread it is delivered to", "why_tests_cant": "depends on which instruction of which thread is interrupted", "anchors": ["src/manager.cpp: setupSignals, signalHandler, stop, terminate"]}
{"id": "C107", "title": "Management records are answered whatever else the server does", "statement": "As soon as nothing is left to be done, the peer of an open connection has got exactly one FCGI_UNKNOWN_TYPE record for every management record (id 0) of a type other than FCGI_GET_VALUES, naming its type, and nothing else with the id 0; at no moment is anything with the id 0 sent for another reason, and such replies never close the connection.", "quantifier": "every interleaving of threads, every fragmentation, every set of connections and requests", "why_tests_cant": "all schedules", "anchors": ["src/manager.cpp: localHandler, handler, push", "src/transceiver.cpp: send, transmit"]}
{"id": "C108", "title": "Wide applications see the same request", "statement": "A request with wide characters gets the same environment as one with narrow characters: every parameter, cookie, query field, form field and file under the same name, each text being the Unicode text of which the narrow one is the UTF-8 form; text that is not UTF-8 affects nothing but itself.", "quantifier": "every sequence of parameter records and pieces of body, well formed or not; every text", "why_tests_cant": "all inputs", "anchors": ["src/http.cpp: vecToString, Environment<wchar_t>::fill, fillPostBuffer, parsePostBuffer, parsePostsMultipart, decodeUrlEncoded"]}
{"id": "C109", "title": "The poller tells of every descriptor with something pending", "statement": "add() and del() behave as on a set of descriptors and say whether they changed it; poll() tells of registered descriptors only, exactly what is pending on them, and, called again and again, of every registered descriptor on which something stays pending.", "quantifier": "every history of add() and del(), every behaviour of the kernel", "why_tests_cant": "all histories, unboundedly long", "anchors": ["src/poll.cpp: Poll::add, del, poll (the variant with poll(2))"]}
{"id": "C110", "title": "A connection that cannot be accepted does not end the server", "statement": "poll() of a socket group ends the program only if polling, a listening socket, a polled socket or the wake-up socket itself fails; a connection that cannot be accepted is passed over; every connection that was accepted is part of the group and polled, or closed; a socket is handed out only if events were reported for it, and is marked as closing if a hang-up or an error is among them; a call that may sleep returns without a socket only if it was woken, interrupted by a signal, or there are no sockets at all.", "quantifier": "every state of the group, every sequence of answers of the operating system", "why_tests_cant": "all sequences of answers, also rare errors", "anchors": ["src/sockets.cpp: SocketGroup::poll, SocketGroup::createSocket"]}
{"id": "C111", "title": "Every request is answered in the end", "statement": "Whatever has happened before: if peers send nothing more and the operating system goes on reading and writing, the server comes to rest after finitely many steps of its threads, however they are scheduled; and then, if it has not been stopped and no peer has sent FCGI_GET_VALUES (C07), the peer of every open connection has got exactly what each of its requests on its own sends, and a connection with one request, if nothing went wrong on it, is closed exactly if the request is complete and FCGI_KEEP_CONN was not set.", "quantifier": "every state that can be reached, every interleaving of the threads from there, every fragmentation of reads and writes", "why_tests_cant": "all schedules, and that none of them is infinite", "anchors": ["src/transceiver.cpp: handler, transmit, receive, send", "src/manager.cpp: handler, push", "src/request.cpp: handler"]}
{"id": "C112", "title": "Log entries are whole and in order, whatever was logged before", "statement": "The log consists of whole lines, one for each entry that is to be logged (by its level, FASTCGIPP_LOG_LEVEL and Logging::suppress), each with time, host, program, level and message, never mixed with another; each thread's entries are in the order in which it logged them; none is missing once no thread is logging; nothing follows an entry of FAIL_LOG; and what an entry contains does not affect the others.", "quantifier": "any number of threads, every interleaving of them, every text", "why_tests_cant": "all schedules, all texts", "anchors": ["include/fastcgi++/log.hpp: INFO_LOG, FAIL_LOG, ERROR_LOG, WARNING_LOG, DEBUG_LOG, DIAG_LOG", "src/log.cpp: header", "src/address.cpp: Address::assign (a message with text from outside)"]}
{"id": "C113", "title": "Suppressing the log changes nothing else", "statement": "Setting Logging::suppress, documented as suppressing the logs that are not errors, changes what is logged and nothing else that the program does.", "quantifier": "every state of a socket group, every sequence of answers of the operating system", "why_tests_cant": "all sequences of answers, also rare errors", "anchors": ["include/fastcgi++/log.hpp: FAIL_LOG", "src/sockets.cpp: SocketGroup::poll, createSocket", "src/manager.cpp: Manager_base::Manager_base"]}
{"id": "C114", "title": "An email carries the addresses set last and the text written", "statement": "What Mailer::queue() takes from an Email are the recipient and the sender that were set last and, as its body, exactly the text written to it, in the encodings that were in force, whatever calls were made in whatever order.", "quantifier": "every sequence of calls, all texts and addresses, narrow and wide", "why_tests_cant": "all histories and texts", "anchors": ["include/fastcgi++/email.hpp: Email, data, to, sender", "src/email.cpp: close, to, sender", "src/mailer.cpp: queue"]}
{"id": "C115", "title": "An email can be destroyed, or queued again, after it has been queued", "statement": "An Email object may be destroyed, written to or queued again at any time, also after it has been queued, without undefined behaviour.", "quantifier": "every sequence of calls", "why_tests_cant": "all histories", "anchors": ["include/fastcgi++/email.hpp: Email::data", "include/fastcgi++/chunkstreambuf.hpp: ChunkStreamBuf::~ChunkStreamBuf, emptyBuffer", "src/email.cpp: close"]}
{"id": "C116", "title": "A manager can be started, stopped, resized and destroyed at any time", "statement": "start(), stop(), terminate(), join(), resizeThreads() and the destructor may be called in any order: start() runs as many threads as were asked for last, join() returns when all of them have ended, resizeThreads() of a manager that does not run takes effect, and no call and no destructor ends the program.", "quantifier": "every sequence of calls and every moment at which threads end", "why_tests_cant": "all histories", "anchors": ["src/manager.cpp: start, stop, terminate, join, resizeThreads, ~Manager_base", "src/transceiver.cpp: start, join"]}
{"id": "C117", "title": "A server listening on a named socket is reached by that name", "statement": "If listen(name) returns true, clients that connect to the name reach this group, and go on doing so as long as it exists and nobody touches the file; the file has the permissions, owner and group asked for; files of other names are left alone; if it returns false nothing is left behind, neither a file nor a descriptor; the name can be listened on again whatever a dead server has left there; the destruction of the group removes the names it listened on, and no descriptor stays open.", "quantifier": "every history of listen() calls, destructions and crashes of any number of servers, other people's files coming and going, all names, every answer of the operating system", "why_tests_cant": "all histories, crash points and refusals of the system", "anchors": ["src/sockets.cpp: SocketGroup::listen(name, permissions, owner, group), SocketGroup::~SocketGroup", "include/fastcgi++/manager.hpp: Manager_base::listen"]}
{"id": "C118", "title": "A block is a vector that does not initialise its elements", "statement": "A Block shows exactly the bytes that were assigned or written to it, across assign(), size(), reserve(), clear() and moves, with memory never misused as long as the caller stays within it; size and reserve are as documented; pointers stay good where documented; a moved block hands over its content; no call affects another block.", "quantifier": "every sequence of calls on any number of blocks, all sizes and contents", "why_tests_cant": "all histories", "anchors": ["include/fastcgi++/block.hpp: Block", "src/block.cpp: reserve, size, assign, clear, operator="]}
{"id": "C119", "title": "The time of If-Modified-Since is the client's date", "statement": "For every date a client sends in If-Modified-Since, environment().ifModifiedSince is its time in seconds since 1970, whatever the server's time zone, so that comparing it with a document's time compares the dates; without the header it is zero, and a value that is not a date is ignored.", "quantifier": "every date from the year 0 to 9999, every text, every time zone", "why_tests_cant": "all dates and texts, leap years included", "anchors": ["src/http.cpp: Environment::fill (HTTP_IF_MODIFIED_SINCE)", "include/fastcgi++/http.hpp: ifModifiedSince"]}
{"id": "C120", "title": "A request with wide characters keeps the same life cycle and sends its text as UTF-8", "statement": "For Request<wchar_t>, whatever messages arrive and whatever the application does: exactly one END_REQUEST, last; response() only after the whole input; aborts, out-of-order records, unknown roles and inputs that are too long end the request as documented; the data buffered is bounded by the limit; no input of whole pairs leads to undefined behaviour; and all text written to out and err is sent before the end, in UTF-8.", "quantifier": "all sequences of records and callbacks, all handlers, all texts, every content of fresh memory, every behaviour of flush() on a failed stream", "why_tests_cant": "all histories and texts", "anchors": ["include/fastcgi++/request.hpp: Request<wchar_t>", "src/request.cpp: handler, complete, errorHandler, bigPostErrorHandler, unknownContentErrorHandler", "src/fcgistreambuf.cpp: FcgiStreambuf<wchar_t>::emptyBuffer", "src/webstreambuf.cpp: xsputn, overflow, sync"]}
{"id": "C121", "title": "The narrow and the wide version of an application answer the same", "statement": "If two applications, derived from Request<char> and Request<wchar_t>, do the same with the same environment, they answer every sequence of records with the same calls in the same order, the same bytes on out and err, and the same end.", "quantifier": "all sequences of records and callbacks, all pairs of applications that do the same, all encodings", "why_tests_cant": "all histories and texts, two instances of the template at once", "anchors": ["include/fastcgi++/request.hpp: Request<charT>", "src/request.cpp: handler, complete", "src/http.cpp: Environment<charT>::fill, parsePostBuffer", "src/fcgistreambuf.cpp: emptyBuffer", "src/webstreambuf.cpp: xsputn"]}
{"id": "C122", "title": "The text of an address is the canonical one", "statement": "An address is written in its canonical form (RFC 5952): groups without leading zeroes and in small letters, the first of the longest runs of two or more zero groups replaced by ::, IPv4 addresses with dotted numbers, so that the texts of an address in logs, in other programs and here are the same.", "quantifier": "all 2^128 addresses, every alignment and fill character", "why_tests_cant": "all addresses", "anchors": ["include/fastcgi++/address.hpp: operator<<", "src/address.cpp: operator<<"]}
{"id": "C123", "title": "The HTTP client, the mailer and SQL connections can be started, stopped and destroyed at any time", "statement": "Calls of init(), start(), stop(), terminate(), join(), queue() and the destructor may follow each other in any order: start() of an object without a thread starts one that has not been asked to end; the thread ends only when asked to since; join() returns when it has ended and the object can be started again; no call and no destructor ends the program or has undefined behaviour.", "quantifier": "all sequences of calls for each of the three classes, with the thread ending at any moment it may", "why_tests_cant": "all histories of calls", "anchors": ["src/curler.cpp: Curler::Curler, ~Curler, start, stop, terminate, join, queue, wake", "src/mailer.cpp: Mailer::init, start, stop, terminate, join, queue, ~Mailer", "src/connection.cpp: Connection::init, start, stop, terminate, join, queue, wake, ~Connection"]}
{"id": "C124", "title": "What an application writes to its streams is what is sent, before the end of the request", "statement": "Whatever an application does with out and err - strings, characters, numbers, fields with padding, copies of other streams, raw data, encodings, failures, clear() - the records of each stream carry exactly what was said to it while it was good, rendered in the encoding chosen, in order, and all of it is sent before the END_REQUEST record.", "quantifier": "every sequence of operations on the two streams, every amount of data, every content of fresh memory, either behaviour of flush() on a failed stream, narrow and wide characters", "why_tests_cant": "all histories and sizes", "anchors": ["include/fastcgi++/request.hpp: Request::out, err, dump, ~Request", "src/request.cpp: complete", "include/fastcgi++/fcgistreambuf.hpp: ~FcgiStreambuf", "src/webstreambuf.cpp: xsputn, overflow, operator<<(Encoding)", "src/fcgistreambuf.cpp: emptyBuffer, dump"]}
{"id": "C125", "title": "The client of a refused request is told so, in one well-formed response", "statement": "An application that keeps the library's error handlers need not do anything for refused requests: whenever the library refuses a request - a record out of order, an unknown role, more data than allowed or announced, a content type nobody understands - the contents of the STDOUT records are exactly one CGI response, with Status 500, 413 or 415, Content-Type text/html and a page with that status; nothing goes to STDERR, and the END_REQUEST record follows.", "quantifier": "every sequence of messages, every phase of the request, every heap content, every class that keeps the error handlers, narrow and wide characters", "why_tests_cant": "all histories", "anchors": ["src/request.cpp: errorHandler, bigPostErrorHandler, unknownContentErrorHandler, handler, complete"]}
{"id": "C126", "title": "What is flushed is sent at once", "statement": "Whatever an application has done with out and err, after flush() of a stream that has not failed, after raw data, and after any output while std::unitbuf is set, everything said to that stream so far, correctly encoded, has been handed over for sending, while the request goes on; and otherwise no more than one buffer (8192 characters) of it is held back, always the latest.", "quantifier": "every sequence of stream operations on both streams, narrow and wide characters, both versions of flush() of the standard library", "why_tests_cant": "all sequences of operations", "anchors": ["src/fcgistreambuf.cpp: emptyBuffer, dumpBuffer", "src/webstreambuf.cpp: xsputn", "include/fastcgi++/webstreambuf.hpp: sync, overflow"]}
{"id": "C127", "title": "A message given to a request through its callback is handled by that request, exactly once", "statement": "An application may ask another system for something and have the answer given to the request by its callback, from any thread: the message makes it to the request that asked, which handles it exactly once, and to no other request.", "quantifier": "every number of handler threads, every schedule of handler threads and callers, calls from outside and from response() itself, every message and request", "why_tests_cant": "all schedules and histories", "anchors": ["include/fastcgi++/manager.hpp: Manager::makeRequest", "src/manager.cpp: Manager_base::push, Manager_base::handler", "include/fastcgi++/request.hpp: Request::callback"]}
{"id": "C128", "title": "A callback can be called from anywhere", "statement": "The callback of a request may be called from any thread at any time, also by the handler threads themselves while they run code of a request (response(), inProcessor(), its destructor): the call always returns, nothing deadlocks, and all threads come to rest.", "quantifier": "every number of handler threads, every schedule, every place of the call", "why_tests_cant": "all schedules", "anchors": ["src/manager.cpp: Manager_base::push, Manager_base::handler", "include/fastcgi++/request.hpp: Request::callback", "examples/echo.cpp"]}
{"id": "C129", "title": "A kept connection serves one request after the other with the same id", "statement": "On a connection kept open (FCGI_KEEP_CONN) a web server may use a request id again. Whatever the schedule, if no BEGIN_REQUEST for the id arrives while a request with it still exists, the records the peer gets for the id are, at every moment, a prefix of the answers that the requests on their own give, one after the other and each to its own records; once nothing is left to do they are all of them; and the server never closes the connection of its own accord. A peer that begins the next request only after the END_REQUEST of the one before has come and the server is at rest meets the condition. (A peer that is quicker may lose its request: C63.)", "quantifier": "every number of requests with the same id, all schedules, other requests and connections, fragmentations, callbacks", "why_tests_cant": "all histories of a connection", "anchors": ["src/manager.cpp: handler, push", "src/request.cpp: handler, complete", "src/transceiver.cpp: handler, transmit, receive, send"]}
{"id": "C130", "title": "Answers depend on the requests only", "statement": "Two peers that send the same requests with the same id are answered with records that say the same, in the same order, whatever the schedule, the number of handler threads, what other peers and other requests do, how reads and writes are cut, the numbers of the connections and what fresh memory contains; at every moment each of them has got a prefix of that. (Same user class, no callback messages. What a record says is all but the byte `reserved`, the contents of the padding and the reserved bytes of END_REQUEST: these are uninitialised memory and do differ.)", "quantifier": "every pair of runs of two servers with the same request class, all conversations, schedules and memories", "why_tests_cant": "a property of pairs of executions (determinism)", "anchors": ["src/manager.cpp: handler, push", "src/request.cpp: handler, complete", "src/fcgistreambuf.cpp: emptyBuffer, dump", "src/transceiver.cpp: transmit, receive"]}
{"id": "C131", "title": "The memory held for a connection's input is bounded and released", "statement": "Whatever a peer sends and however reads are cut, the transceiver never holds more memory for the input of a connection than the longest record takes (8 + 65535 + 255 bytes), nothing between records, and nothing once the connection is closed. (The last part is false when the connection is closed because a write failed: then the partial record is kept for ever.)", "quantifier": "all histories of arrivals, reads, sends, failures; all connections", "why_tests_cant": "all histories", "anchors": ["src/transceiver.cpp: receive, transmit", "include/fastcgi++/block.hpp: Block"]}
{"id": "C132", "title": "Decimal fractions are read correctly rounded", "statement": "Reading a decimal number from a range of characters never looks outside the range, ends before the first character that is no digit and no point, and gives the float nearest to a number that differs from the written one by a few units of 2^-53 relative error; whole numbers up to 2^24 are read exactly and a minus sign in front negates. (False for very long fractions and for texts with two points.)", "quantifier": "all character ranges, all memory after them, all digits, up to 38 before and 300 after the point", "why_tests_cant": "rounding errors over all digit strings", "anchors": ["src/http.cpp: atof"]}
{"id": "C133", "title": "A stream that says it is good has lost nothing", "statement": "When an application has written wide characters of any value to a stream and flushed it, the stream's state says whether all of them could be encoded; if it is good, all of them have been handed over for transmission, in order and in UTF-8. (False for strings that do not fit into what is left of the buffer, and when raw data follows text.)", "quantifier": "all sequences of characters, strings that fit, flushes and changes of unitbuf; both streams; both behaviours of flush() in standard libraries", "why_tests_cant": "all operation sequences and all 2^32 characters", "anchors": ["src/webstreambuf.cpp: xsputn, overflow, sync", "src/fcgistreambuf.cpp: emptyBuffer"]}
{"id": "C134", "title": "A session store forgets what is not used", "statement": "After every get() the store holds no more sessions than have been generated or successfully looked up in the last two keep-alive periods (and the seconds a cleanup takes), so its memory is bounded by the recent traffic. (False for programs that only generate sessions: nothing is ever removed.)", "quantifier": "all keep-alive times, all histories of generate, get and erase, all monotone clock readings, all draws of identifiers", "why_tests_cant": "all histories and clocks", "anchors": ["include/fastcgi++/http.hpp: Sessions::generate, get, erase"]}
{"id": "C135", "title": "No data races", "statement": "Whatever threads and requests in their handlers call (log, push, stop, terminate, session stores, queue of mailer, HTTP client and SQL connection), no two threads ever access the same object of the library at the same time with one of them changing it. (False for the queue of outgoing records, valid() of a connection, the time buffer of the C library, the text of expiration(), the wake-up flag of the HTTP client, the queue and table of the SQL connection, resizeThreads() and, at the highest log level, the table of requests.)", "quantifier": "all numbers of threads, all calls in all orders, all branches, all schedules", "why_tests_cant": "all schedules", "anchors": ["src/manager.cpp: every lock and shared member", "src/transceiver.cpp", "src/request.cpp", "src/sockets.cpp", "src/mailer.cpp", "src/curler.cpp", "src/connection.cpp", "src/log.cpp", "include/fastcgi++/http.hpp: every lock and shared member"]}
{"id": "C136", "title": "No deadlocks", "statement": "Whatever threads and requests in their handlers call, threads never wait for each other's locks in a circle and none ends with a lock: while some thread has something to do, one can go on. (False if the constructor of a request calls stop().)", "quantifier": "all numbers of threads, all calls in all orders, all branches, all schedules", "why_tests_cant": "all schedules", "anchors": ["src/manager.cpp: every lock and shared member", "src/transceiver.cpp", "src/request.cpp", "src/sockets.cpp", "src/mailer.cpp", "src/curler.cpp", "src/connection.cpp", "src/log.cpp", "include/fastcgi++/http.hpp: every lock"]}
{"id": "C137", "title": "The HTTP client asks for what it was told to", "statement": "When a Curl object is queued, its request goes to the URL set last since reset(), narrow or wide (as UTF-8), with exactly the header fields added, in order, and the server's certificate and name are verified unless verifySSL(false) was the last word. (False for wide texts that are not Unicode: the previous URL is used; for texts with a 0; and for libcurl 7.28.1 to 7.65.3, where verifySSL(true) after verifySSL(false) leaves the name unverified.)", "quantifier": "all sequences of setUrl, addHeader, verifySSL, reset and queueing, all texts, all versions of libcurl", "why_tests_cant": "all histories and texts", "anchors": ["src/curl.cpp: setUrl, addHeader, verifySSL, prepare, reset", "include/fastcgi++/curl.hpp"]}
{"id": "C138", "title": "A willing database gets and answers every query", "statement": "Suppose connections to the database can be made, take whole queries and answer each one, and that the connection object was neither stopped nor terminated, no query was refused or sent in part before, and no call of queue() waits with a full wake-up socket. Then the thread does not go round for ever: whatever the schedule, it comes to rest after finitely many steps, and when it rests the callback of every query ever accepted has been called.", "quantifier": "all histories of queue(), connections lost and made, up to the moment considered; all schedules from then on", "why_tests_cant": "all schedules and histories; it is a statement on infinite executions", "anchors": ["src/connection.cpp: handler, queue, connect, wake", "include/fastcgi++/sql/connection.hpp"]}
{"id": "C139", "title": "Choosing an output encoding is safe on every stream", "statement": "Inserting Encoding::NONE, HTML or URL into an ostream sets the encoding of the web stream buffer the stream has at that moment: each buffer has the encoding asked for last through any stream attached to it, and no other buffer changes. On a stream with another kind of buffer, or none, an error is logged and nothing else happens. (The second sentence is false: the code writes through a null pointer, and never logs.)", "quantifier": "all sequences of insertions of encodings and of rdbuf() calls, over any number of streams and buffers of any kind", "why_tests_cant": "all histories, all sets of streams", "anchors": ["src/webstreambuf.cpp: operator<<", "include/fastcgi++/webstreambuf.hpp"]}
{"id": "C140", "title": "A result tells what the server said about it", "statement": "status() of a Results object is noResult exactly if no result came, and otherwise the status the server gave; rows() is the number of rows, null(row, column) is false exactly for cells that exist and are not NULL, verify() of Results<> is 0 exactly if there are neither columns nor rows; affectedRows() is the number of rows the command affected, 0 if it does not count any; different statuses have different descriptions. (False for affectedRows() from 2^31 on: undefined behaviour.)", "quantifier": "all results of any size, all rows and columns asked for, all statuses and counts", "why_tests_cant": "unbounded results and counts", "anchors": ["src/results.cpp: status, affectedRows, rows, null, columns, statusString", "include/fastcgi++/sql/results.hpp: Status, Results<>::verify"]}
{"id": "C141", "title": "The log names the host and the program", "statement": "Before main(), the host's name and the program's name with its process number are made ready for the log; a name that is not UTF-8 is replaced by localhost or unknown. (False in a program that logs warnings: the warning about such a name is written with names that have not been constructed yet; and if gethostname fails, with a buffer without content.)", "quantifier": "all names of hosts and programs, all process numbers, all log levels", "why_tests_cant": "all names", "anchors": ["src/log.cpp: getHostname, getProgram, hostname, program"]}
{"id": "C142", "title": "Listening on ports and on the inherited socket", "statement": "listen(interface, service) returns true only if exactly one new socket listens on one of the addresses found, and leaves nothing open if it returns false; listen() returns true exactly if descriptor 0 is a socket not yet listened on by this group and the system agrees; the destructor closes exactly the group's listeners; until then each of them stays open and listening. (The last is false if two groups listen on descriptor 0, which both calls allow: destroying one closes the socket of the other, whose descriptor may then be any file.)", "quantifier": "all histories of listen() and listen(interface, service) calls, destructions of groups, and files opened and closed by the rest of the program", "why_tests_cant": "all histories and answers of the system", "anchors": ["src/sockets.cpp: SocketGroup::listen(), SocketGroup::listen(interface, service), ~SocketGroup"]}
{"id": "C143", "title": "A request queued again posts the same data", "statement": "A Curl object whose transfer has failed can be queued again, without reset(), any number of times, and each attempt offers the server the same data with the same size. (False: once an attempt has taken 4096 bytes, the blocks of 4096 bytes taken are gone; the next attempt silently posts the rest as if it were all.)", "quantifier": "all request bodies and encodings, any number of attempts, each with any sequence of reads", "why_tests_cant": "all bodies, attempts and read sizes", "anchors": ["src/curl.cpp: prepare, readCallback", "src/chunkstreambuf.cpp: emptyBuffer", "src/curler.cpp: queue"]}
{"id": "C144", "title": "Data cannot break out of the place they are written to", "statement": "If an application writes its pages from fixed text and from data inserted under Encoding::HTML or Encoding::URL, the markup characters (<, >, double and single quotes) that the peer receives do not depend on the data; under Encoding::URL the characters reserved in URLs do not, nor does the end of the header part. (False for data inserted one character at a time, which are not encoded, and for headers: line ends are not encoded by Encoding::URL, so that data in a header can end the header part.)", "quantifier": "all pages, all data, any buffering, encodings, streams out and err, char and wchar_t", "why_tests_cant": "all pages and all data", "anchors": ["src/webstreambuf.cpp: xsputn, htmlCharacters, urlCharacters", "include/fastcgi++/webstreambuf.hpp: Encoding", "src/fcgistreambuf.cpp: emptyBuffer, overflow"]}
{"id": "C145", "title": "SQL connections and mailers go where the first init() said", "statement": "Of several calls of init() the first one that finds the object uninitialised counts. Every connection is made to the host, port, database, user and password it named, the number of connections and the message type of replies are the ones given, and after a failure the next attempt comes after the given number of seconds. (False: a database name with an equals sign in it, or beginning like a postgresql:// URI, is taken for a connection string, which can name another host; a retry interval of more than 2147483 seconds is not kept, up to 4294967 seconds a failed SQL connection is never tried again.)", "quantifier": "all arguments, any number of calls", "why_tests_cant": "all texts, ports, message types and intervals", "anchors": ["src/connection.cpp: init, connect, handler", "include/fastcgi++/sql/connection.hpp: init", "src/mailer.cpp: init, handler", "include/fastcgi++/mailer.hpp: init"]}
{"id": "C146", "title": "A session is found again by the cookie it was given", "statement": "If an application creates a session, writes the identifier into a Set-Cookie header under Encoding::URL as the examples do, and the client sends the cookie back as it got it before the session has expired, then environment().cookies, the identifier made from that text and get() lead to the session's data. (False for identifiers whose base64 text has a plus sign, about a quarter of all: with the current libstdc++ the characters are not encoded, the plus sign comes back as a space, and the identifier then made has uninitialised bytes in it.)", "quantifier": "all identifiers, stores, session data, times, uninitialised memory contents and texts after the cookie", "why_tests_cant": "all identifiers and memory contents", "anchors": ["include/fastcgi++/http.hpp: SessionId, operator<<, Sessions", "src/http.cpp: SessionId, decodeUrlEncoded", "src/webstreambuf.cpp: xsputn", "examples/sessions.cpp: response"]}
{"id": "C147", "title": "The expiration text of a session store is its expiration time as an HTTP date", "statement": "At all times expiration() is a zero-terminated text, the HTTP date (RFC 7231) of the time until which the store promises cookies, whatever calls were made before and whatever the memory held before the constructor. (False once the program has set its global C locale to a language with other names of days and months: the text is then no HTTP date, and with longer names it is empty.)", "quantifier": "all keep-alive times, clock readings before the year 10000, histories of calls, memory contents and locales", "why_tests_cant": "all times, histories and locales", "anchors": ["include/fastcgi++/http.hpp: setExpiration, expiration, get, Sessions, expirationLength"]}
{"id": "C148", "title": "A form sent to a server is what its application answers", "statement": "If a web server sends a request to a running server over a connection, in whatever pieces and among whatever other requests, with CGI variables in records of whole parameters and a body of the announced length that is a urlencoded form or a multipart form (or empty), and the application keeps the library's handlers, writes in response() what a function of environment() says and returns true, then once the server has nothing left to do and the connection is open, the application has seen an environment with exactly the variables, query fields, cookies, form fields and files that were sent, and the connection has carried for that request STDOUT and STDERR records with exactly what it wrote for that environment, and END_REQUEST with status 0 after them. On a connection with that request alone these are all the bytes, and the connection is closed exactly if the web server did not ask to keep it.", "quantifier": "all schedules of the threads, all ways the kernel divides reads and writes, all other traffic on the connection and others, all applications of that kind, all variables, forms and divisions into records", "why_tests_cant": "all schedules, inputs and applications at once", "anchors": ["include/fastcgi++/manager.hpp: Manager", "src/manager.cpp: push, handler", "src/transceiver.cpp: handler, receive, transmit", "src/request.cpp: handler, complete", "src/http.cpp: fill, parsePostBuffer, parsePostsMultipart, decodeUrlEncoded", "include/fastcgi++/request.hpp: response, environment, out, err"]}
{"id": "C149", "title": "An application that answers later, through its callback, is heard", "statement": "An application may return false from response(), ask another system, and have the answer given to the request through callback() from any thread. If a web server has sent a form, the server has come to rest with the application waiting, and then callbacks are called while no more arrives on the connection, then once the server has come to rest again and the connection is open, the application has been given first the environment that was sent and then the messages of the callbacks, each once, in the order they were taken in, until it returned true; and the connection has carried for that request STDOUT and STDERR records with exactly what the application wrote over all these calls and END_REQUEST with status 0 after them, or, if it never returned true, no END_REQUEST and a beginning of what it wrote. A callback called for a request that waits is taken in. On a connection with that request alone these are all the bytes, and it is closed exactly if the application is finished and the web server did not ask to keep it.", "quantifier": "all schedules of the threads, all ways the kernel divides reads and writes, all other traffic, all applications (any state, any changes to the environment), all forms, any number of callback calls with any messages from any threads", "why_tests_cant": "all schedules, inputs, applications and calls at once", "anchors": ["include/fastcgi++/request.hpp: callback, response, Request", "src/request.cpp: handler, complete", "src/manager.cpp: push, handler", "src/transceiver.cpp: handler", "include/fastcgi++/message.hpp: Message", "include/fastcgi++/manager.hpp: Manager"]}
{"id": "C150", "title": "A form sent to an application with wide characters is what the application answers", "statement": "For an application of Request<wchar_t> that keeps the library's handlers and whose response() writes Unicode text and returns true: if a web server has sent a whole request - any parameters, a url-encoded or multipart body or none, in any records and pieces, among any other requests - then once the server has come to rest and the connection is open, response() has seen an environment that says what was sent, each text decoded from UTF-8 (a malformed name, value or path element is empty; a malformed header leaves what was there), and the connection has carried for that request STDOUT and STDERR records with exactly what the application wrote, in UTF-8, and after them END_REQUEST with status 0. On a connection with that request alone these are all the bytes, and it is closed exactly if the web server did not ask to keep it.", "quantifier": "all schedules of the threads, all ways the kernel divides reads and writes, all other traffic, all applications, all forms, well-formed UTF-8 or not", "why_tests_cant": "all schedules, inputs and applications at once", "anchors": ["include/fastcgi++/request.hpp: Request, response", "src/request.cpp: handler, complete", "include/fastcgi++/http.hpp: Environment, vecToString", "src/http.cpp: fill, parsePostBuffer", "src/fcgistreambuf.cpp: emptyBuffer", "src/manager.cpp: push, handler", "src/transceiver.cpp: handler"]}
{"id": "C151", "title": "Who sends a request that is refused is told so, whatever else the server does", "statement": "An application that keeps the library's handlers need not do anything for requests it cannot answer. If a web server sends a whole request that asks for a role other than responder or authorizer, or announces a body above the limit given to the Request, or sends more body than announced (or some without announcing any), or a body whose content type is not that of a form - in any pieces, among any other requests - then once the server has come to rest and the connection is open, the connection has carried for that request exactly one CGI response with Status 500, 413, 413 or 415 and its page in STDOUT records, nothing in STDERR records, and END_REQUEST with protocol status UNKNOWN_ROLE in the first case and REQUEST_COMPLETE in the others; what the web server sends of the request after that is ignored. On a connection with that request alone these are all the bytes, and it is closed exactly if the web server did not ask to keep it.", "quantifier": "all schedules of the threads, all ways the kernel divides reads and writes, all other traffic, all applications that keep the handlers, all parameters, bodies and limits, narrow and wide characters", "why_tests_cant": "all schedules, inputs and applications at once", "anchors": ["include/fastcgi++/request.hpp: Request, errorHandler, bigPostErrorHandler, unknownContentErrorHandler", "src/request.cpp: handler, complete, errorHandler, bigPostErrorHandler, unknownContentErrorHandler", "src/manager.cpp: push, handler", "src/http.cpp: fill, parsePostBuffer"]}
{"id": "C152", "title": "An application can take the body of a request itself", "statement": "An application whose inProcessor() returns true for a content type of its own gets the body as it was sent. If a web server sends a whole request whose body is within the announced length and the limit - in any pieces, among any other requests - then inProcessor() is called once, when all of the body is there, with an environment that holds the bytes of the body in order in postBuffer(), the name of the content type, and everything that the CGI variables say, with no fields or files parsed; before that, inHandler() is called once for each piece with its length; after it response() is called with whatever inProcessor() left in the application's own state and an empty postBuffer(). Once the server has come to rest and the connection is open, the connection has carried for the request exactly what the three wrote, in this order and per stream, and END_REQUEST with status 0. On a connection with this request alone these are all the bytes, and it is closed exactly if the web server did not ask to keep it.", "quantifier": "all schedules of the threads, all ways the kernel divides reads and writes, all other traffic, all applications whose inHandler() leaves the environment as it is and whose inProcessor() takes what was sent, all parameters, bodies and divisions of the body into records", "why_tests_cant": "all schedules, inputs and applications at once", "anchors": ["include/fastcgi++/request.hpp: Request, inHandler, inProcessor, response", "src/request.cpp: handler, complete", "src/manager.cpp: push, handler", "src/http.cpp: fill", "include/fastcgi++/http.hpp: Environment, fillPostBuffer, clearPostBuffer, postBuffer"]}
{"id": "C153", "title": "A web server that gives up a request is answered at once", "statement": "A web server can give up a request with ABORT_REQUEST at any time. If it does so before it has sent all of the request - at any record, among any other requests - then response() is never called, and once the server has come to rest and the connection is open, the connection has carried for that request only what the application's inHandler() wrote while the body came in (nothing, if the application keeps the library's) and END_REQUEST with status REQUEST_COMPLETE. If it does so when the application has seen all of the request and waits for a callback, the connection has carried exactly what the application has written so far and that END_REQUEST. Whatever the web server sends for the request after giving it up is ignored. On a connection with that request alone these are all the bytes, and it is closed exactly if the web server did not ask to keep it.", "quantifier": "all schedules of the threads, all ways the kernel divides reads and writes, all other traffic, all places to give up, all parameters and bodies, all applications whose inHandler() leaves the environment alone (before the end of the input), all applications that keep the handlers and whose response() waits (after it)", "why_tests_cant": "all schedules, inputs and applications at once", "anchors": ["include/fastcgi++/request.hpp: Request, inHandler, response", "src/request.cpp: handler, complete", "src/manager.cpp: push, handler", "include/fastcgi++/protocol.hpp: RecordType"]}
{"id": "C154", "title": "Forms sent one after another over a kept connection", "statement": "A web server that keeps its connections sends one request after another over the same connection, with the same request id. If it sends any number of complete requests of the role responder or authorizer with a form in the body in this way - each after the first when the server has come to rest, among any other requests -, then once the server has come to rest after the last one and the connection is open, what the connection has carried for that id are the answers to all the forms, in the order they were sent: for each form exactly what the application writes for an environment with the variables, fields and files of this form - nothing is left over from the forms before it - and END_REQUEST with status REQUEST_COMPLETE. If the connection is used for these forms only, the web server asks to keep it in each, and nothing goes wrong on it, then it is open, and these answers are all its bytes.", "quantifier": "all numbers of requests, all forms, all schedules of the threads, all ways the kernel divides reads and writes, all other traffic, all applications that keep the handlers of the library", "why_tests_cant": "all histories of requests, and all schedules and inputs of each, at once", "anchors": ["include/fastcgi++/request.hpp: Request, response", "src/request.cpp: handler, complete", "src/manager.cpp: push, handler", "src/transceiver.cpp: receive, send, transmit", "include/fastcgi++/http.hpp: Environment"]}
{"id": "C155", "title": "Records and callbacks that come in turn are handled in that order", "statement": "An application can keep the callback of a request and call it from anywhere, while the web server goes on sending records. If the records and the calls for a request come in phases - in each phase only records or only calls, as many as one likes, each phase after the first beginning when the server has come to rest, with anything going on for other requests -, then once the server has come to rest and the connection is open, what it has carried for the request is exactly what a request on its own sends that is given all these records and messages in that order. On a connection with the request alone, on which nothing goes wrong, these are all the bytes, and it is closed exactly if the request is complete and the web server did not ask to keep it. In particular: if a form is sent, in any number of pieces, then callbacks are called any number of times, and then the web server gives up the request, the answer is exactly what the application has written for the form and for these messages until it was finished, and END_REQUEST with status REQUEST_COMPLETE.", "quantifier": "all numbers and lengths of phases, all schedules of the threads, all ways the kernel divides reads and writes, all other traffic, all applications", "why_tests_cant": "all histories of records and calls, and all schedules of each, at once", "anchors": ["include/fastcgi++/request.hpp: Request, callback, response", "src/request.cpp: handler, complete", "src/manager.cpp: push, handler"]}
{"id": "C156", "title": "An application that takes long does not hold up the other requests", "statement": "While some handler threads are inside the application (in response(), inHandler() or any other function of it) and do not come back, the rest of the server goes on: all other threads and all calls of push and callback finish what they do, and if there is at least one thread more, and none has ended, then once they have come to rest every request that is not itself being handled by one of the slow threads has had all its messages handled to the end. This state is reached from everywhere without any step of the slow threads.", "quantifier": "all numbers of threads, all sets of slow threads, all applications, all requests and messages, all schedules, spurious wake-ups and losses of connections", "why_tests_cant": "all interleavings of the other threads while one does not move; a test can hold up a thread at few places and cannot tell a message that comes late from one that never comes", "anchors": ["src/manager.cpp: handler, push", "include/fastcgi++/manager.hpp: Manager", "src/request.cpp: handler"]}
