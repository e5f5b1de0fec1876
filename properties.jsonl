{"id": "C01", "title": "Status code conversion is lossless", "statement": "For every 32-bit number c, HttpStatus::from_code(c).to_code() == c; and for every status value s, from_code(s.to_code()) == s exactly when s is not an Unknown(n) whose n is one of the 40 named codes.", "quantifier": "every u32 code and every HttpStatus value", "why_tests_cant": "The unit test loops over 0..600 only; the claim covers all 2^32 codes and the converse direction over all values of the enum.", "anchors": ["src/protocol.rs: HttpStatus::to_code, HttpStatus::from_code"]}
{"id": "C02", "title": "A displayed status parses back to the same code", "statement": "For every HttpStatus s, parsing the text that Display produces for s succeeds and yields a status with the same numeric code (so from_code(s.to_code())).", "quantifier": "every HttpStatus value, including Unknown(n) for every u32 n", "why_tests_cant": "The existing test lists 41 literals; Unknown(n) has 2^32 values and the text goes through a tokenizer and a number parser.", "anchors": ["src/protocol.rs: impl Display for HttpStatus, impl FromStr for HttpStatus, Parser::parse_number, Parser::parse_token"]}
{"id": "C03", "title": "Status parsing accepts exactly an unsigned decimal first token", "statement": "For every string, parsing it as HttpStatus succeeds iff its text before the first space or tab is an optional '+' followed by one or more decimal digits whose value is below 2^32, and then the result is from_code of that value; the reason phrase never matters.", "quantifier": "every string", "why_tests_cant": "Acceptance over all strings, with overflow at 2^32 and arbitrary reason phrases, is not a finite check.", "anchors": ["src/protocol.rs: impl FromStr for HttpStatus, Parser::parse_token, Parser::parse_number"]}
{"id": "C04", "title": "Status category is the hundreds digit", "statement": "For every status, to_category is Informational/Success/Redirection/ClientError/ServerError exactly when its code is in 100..199/200..299/300..399/400..499/500..599 and Unknown otherwise.", "quantifier": "every HttpStatus value including Unknown(n) for all n", "why_tests_cant": "Tests check 7 values.", "anchors": ["src/protocol.rs: HttpStatus::to_category, HttpStatusCategory::from_code"]}
{"id": "C05", "title": "Method names round-trip and are matched case-insensitively", "statement": "For every method m, parsing Display(m) gives m; for every ASCII string, parsing succeeds with m iff the string equals m's name up to ASCII case, and otherwise fails with a parse error.", "quantifier": "every method and every ASCII string", "why_tests_cant": "All spellings of any length must be accepted or rejected correctly.", "anchors": ["src/protocol.rs: impl FromStr for HttpMethod, impl Display for HttpMethod"]}
{"id": "C06", "title": "Protocol version round-trips and only HTTP/d.d is accepted", "statement": "For all single-digit major and minor, Display then parse returns the same version; for every string, parsing succeeds only if the string begins with HTTP/ digit . digit, and the result carries those two digits (anything after is ignored).", "quantifier": "every string, every pair of digits", "why_tests_cant": "The parser indexes into the string by byte offsets; all strings must be covered.", "anchors": ["src/protocol.rs: impl FromStr for HttpVersion, impl Display for HttpVersion, Parser::expect, Parser::parse_digit"]}
{"id": "C07", "title": "Chunk size numbers round-trip through hexadecimal", "statement": "For every length n below 2^64 the hexadecimal text written in front of a chunk parses back to n; the size parser accepts exactly an optional '+' and one or more hex digits of either case with value below 2^64 and returns that value.", "quantifier": "every u64 and every string", "why_tests_cant": "2^64 lengths, all spellings, leading zeros and the overflow boundary.", "anchors": ["src/protocol.rs: OutgoingBody::write, HttpBodyChunk::new"]}
{"id": "C08", "title": "Line reader returns exactly the bytes before the first CRLF", "statement": "For every byte stream delivered in any fragmentation: if the bytes contain CR LF, reading a line consumes exactly up to and including the first CR LF and returns the bytes before it as text (end-of-block when they are empty, a UTF-8 error when they are not UTF-8); if there is no CR LF before the stream ends, it fails with an unexpected-EOF error. It never reads a byte after the CR LF.", "quantifier": "every byte stream, every split of it into read results, every continuation after the line", "why_tests_cant": "All streams, all read schedules and all lone-CR / lone-LF placements.", "anchors": ["src/protocol.rs: CrLfStream::inner_next, CrLfStream::expect_next, Iterator for CrLfStream", "src/io.rs: Bytes::next"]}
{"id": "C09", "title": "Parsing a message never depends on how the transport fragments it", "statement": "Two transports that deliver the same bytes and faults in the same order, but split into reads differently, give the same result when a request (or response) is deserialized: same outcome, same method/uri/version/status/headers, same kind of body, and the same bytes left for the body.", "quantifier": "every pair of transports with equal event order, every byte content, every fault position", "why_tests_cant": "Read schedules are unbounded; tests use one in-memory slice.", "anchors": ["src/protocol.rs: HttpRequest::deserialize, HttpResponse::deserialize, HttpHeaders::deserialize, CrLfStream"]}
{"id": "C10", "title": "Parsing a message head consumes the head and nothing more", "statement": "When a request or response head parses successfully, the transport has been read exactly up to the end of the blank line that ends the head; every byte after it is still available to the body reader, and the outcome does not depend on those bytes (so a head can be parsed before the body has arrived).", "quantifier": "every head and every continuation of the stream", "why_tests_cant": "Over-read shows only with particular continuations; all must be covered.", "anchors": ["src/protocol.rs: HttpRequest::deserialize, HttpResponse::deserialize, HttpHeaders::deserialize"]}
{"id": "C11", "title": "No bytes from the peer can panic the message parser", "statement": "For every byte stream, deserializing a request or a response, and reading its body, returns Ok or Err; it never panics.", "quantifier": "every byte stream", "why_tests_cant": "A panic needs one specific byte at one specific offset; random or example tests miss it.", "anchors": ["src/protocol.rs: Parser::expect, Parser::parse_digit, HttpVersion::from_str, HttpHeader::deserialize, HttpRequest::deserialize, HttpResponse::deserialize"]}
{"id": "C12", "title": "Header lookup is case-insensitive and insert overwrites only its own name", "statement": "After any sequence of insertions into an empty header set, looking up a name returns the value most recently inserted under a name that differs at most in case, and None if there is none.", "quantifier": "every sequence of insertions and every lookup name", "why_tests_cant": "All histories; the test tries three spellings of one name.", "anchors": ["src/protocol.rs: HttpHeaders::get, HttpHeaders::insert"]}
{"id": "C13", "title": "Header sets built by collecting pairs answer case-insensitive lookups", "statement": "For every list of (name, value) pairs, collecting it into HttpHeaders (as the http_headers! macro does) and then looking up a name in any case returns the last value given for that name.", "quantifier": "every list of pairs and every spelling of the name", "why_tests_cant": "Needs every capitalisation of every name.", "anchors": ["src/protocol.rs: impl FromIterator for HttpHeaders, macro http_headers, HttpHeaders::get"]}
{"id": "C14", "title": "Header block round-trips", "statement": "For every header set whose names are lower-case, contain no ':' and no CR LF and do not begin with a space or tab, and whose values contain no CR LF, the serialized block followed by a blank line deserializes to exactly the same set, consuming exactly those bytes.", "quantifier": "every such header set of every size, every fragmentation, every continuation", "why_tests_cant": "Unbounded maps and arbitrary values.", "anchors": ["src/protocol.rs: HttpHeaders::serialize, HttpHeaders::deserialize, HttpHeader::deserialize"]}
{"id": "C15", "title": "Repeated headers: last one wins; folded lines extend the previous header", "statement": "For every sequence of well-formed header lines, the parsed set maps each name to the value of its last occurrence; a line that begins with a space or tab is appended (with its whitespace) to the preceding header line's value.", "quantifier": "every list of header lines with any number of repetitions and continuation lines", "why_tests_cant": "Unbounded sequences.", "anchors": ["src/protocol.rs: HttpHeaders::deserialize, From<Vec<HttpHeader>> for HttpHeaders"]}
{"id": "C16", "title": "A header value cannot add or change other headers", "statement": "Whatever value a program gives to add_header, the peer that parses the serialized message sees the same set of header names.", "quantifier": "every header value", "why_tests_cant": "Needs the adversarial value with an embedded CR LF.", "anchors": ["src/protocol.rs: HttpHeaders::insert, HttpHeaders::serialize, HttpRequest::add_header"]}
{"id": "C17", "title": "Malformed header lines are rejected", "statement": "A header line is accepted iff it contains a ':' and the first ':' is immediately followed by a space; otherwise the whole message fails to parse and no header set is returned.", "quantifier": "every header line", "why_tests_cant": "All strings.", "anchors": ["src/protocol.rs: HttpHeader::deserialize, HttpHeaders::deserialize, Parser::parse_until, Parser::expect, Parser::parse_remaining"]}
{"id": "C18", "title": "Request head round-trips", "statement": "For every method, every non-empty target without spaces, tabs or line breaks, and every well-formed header set, the head that serialize writes is parsed back by deserialize to the same method, target, version 1.1 and headers, leaving exactly the bytes that follow.", "quantifier": "every method, target, header set, continuation and fragmentation", "why_tests_cant": "Unbounded product of inputs.", "anchors": ["src/protocol.rs: HttpRequest::serialize, HttpRequest::deserialize"]}
{"id": "C19", "title": "Response head round-trips", "statement": "For every status and every well-formed header set, the head that serialize writes is parsed back by deserialize to a status with the same code, version 1.1 and the same headers, leaving exactly the bytes that follow.", "quantifier": "every status, header set, continuation and fragmentation", "why_tests_cant": "Unbounded product of inputs.", "anchors": ["src/protocol.rs: HttpResponse::serialize, HttpResponse::deserialize"]}
{"id": "C20", "title": "Body framing is decided by the headers alone, chunked first", "statement": "On a successfully parsed message the body is chunked iff the transfer-encoding header equals 'chunked' exactly; otherwise it is limited to N bytes iff a content-length N is present; otherwise it runs to end of stream. A content-length that is not a u64 makes the parse fail even when the body is chunked.", "quantifier": "every header set", "why_tests_cant": "All combinations of the two headers and their values.", "anchors": ["src/protocol.rs: HttpBody::new, HttpRequest::deserialize, HttpResponse::deserialize"]}
{"id": "C21", "title": "An empty target becomes '/'", "statement": "For every method and string, the request built from it carries '/' if the string is empty and the string itself otherwise, version 1.1 and no headers.", "quantifier": "every string", "why_tests_cant": "All strings.", "anchors": ["src/protocol.rs: HttpRequest::new"]}
{"id": "C22", "title": "Chunked upload decodes to exactly the bytes written", "statement": "For every sequence of write calls on an outgoing body followed by finish, a chunked body reader on the receiving side yields exactly the concatenation of the written data and then end of body, for every fragmentation and every choice of positive read buffer sizes.", "quantifier": "every sequence of writes, fragmentation and read-size schedule", "why_tests_cant": "Three unbounded dimensions at once.", "anchors": ["src/protocol.rs: OutgoingBody::write, OutgoingBody::finish, HttpChunkedBody::read, HttpBodyChunk::new"]}
{"id": "C23", "title": "Empty writes do not end a chunked body", "statement": "Writing an empty buffer to an outgoing body returns Ok(0), emits nothing, and does not alter what the receiver reads, wherever it occurs in the sequence of writes.", "quantifier": "every sequence of writes with empty ones anywhere", "why_tests_cant": "All positions in all sequences.", "anchors": ["src/protocol.rs: OutgoingBody::write"]}
{"id": "C24", "title": "Chunked reader decodes every well-formed chunk sequence", "statement": "For every sequence of chunks in which each size is spelled as any accepted hexadecimal number equal to its data length, followed by a line whose value is zero, the reader yields the concatenated data and stops, having consumed exactly through that last size line.", "quantifier": "every chunk sequence, size spelling, fragmentation and read-size schedule", "why_tests_cant": "Unbounded.", "anchors": ["src/protocol.rs: HttpChunkedBody::read, HttpBodyChunk::new"]}
{"id": "C25", "title": "A truncated chunked body is reported as an error", "statement": "If the stream ends anywhere before the terminating zero-size line of a chunked body is complete, reading the body to the end reports an error after delivering a prefix of the data; it never looks like a complete body.", "quantifier": "every chunk sequence, every cut point, every fragmentation and read-size schedule", "why_tests_cant": "All cut points of all bodies.", "anchors": ["src/protocol.rs: HttpChunkedBody::read, HttpBodyChunk::new", "src/io.rs: Read::read_exact"]}
{"id": "C26", "title": "A failed chunked read can be retried without losing data", "statement": "If reading a chunked body fails with a transient transport error (such as an interrupted system call, which standard readers retry), calling read again continues with the remaining data, and end of body is reported only after the terminating chunk was seen.", "quantifier": "every position of the transient error in every chunked body", "why_tests_cant": "Needs an error injected in the middle of a read history.", "anchors": ["src/protocol.rs: HttpChunkedBody::read"]}
{"id": "C27", "title": "Reading with an empty buffer does not disturb a chunked body", "statement": "A read with a zero-length buffer on a chunked body returns Ok(0) and leaves the remaining contents unchanged.", "quantifier": "every chunked body state", "why_tests_cant": "Needs zero-length reads at every point of every read history.", "anchors": ["src/protocol.rs: HttpChunkedBody::read"]}
{"id": "C28", "title": "The data of a chunk must be followed by CR LF", "statement": "If the two bytes after a chunk's data are not CR LF the chunked reader reports an error.", "quantifier": "every chunked stream", "why_tests_cant": "All malformed streams.", "anchors": ["src/protocol.rs: HttpChunkedBody::read"]}
{"id": "C29", "title": "A length-delimited body yields exactly its bytes and reads no further", "statement": "For a body limited to N bytes over any stream, reading to the end yields the first min(N, available) bytes, never more than N, the remaining length reported by content_length is N minus the bytes delivered, and bytes after the N-th remain in the stream.", "quantifier": "every N, stream, fragmentation, read-size schedule", "why_tests_cant": "Unbounded; over-reads show only with certain buffer sizes.", "anchors": ["src/protocol.rs: HttpBody::new, HttpBody::content_length, HttpBody::read", "src/io.rs: Take::read"]}
{"id": "C30", "title": "A truncated length-delimited body is reported as an error", "statement": "If the stream ends before N bytes of a body with content-length N were received, reading the body to the end reports an error.", "quantifier": "every N and every shorter stream", "why_tests_cant": "All truncation points.", "anchors": ["src/protocol.rs: HttpBody::new", "src/io.rs: Take::read"]}
{"id": "C31", "title": "Reads on length-delimited and until-close bodies survive transient errors", "statement": "When the transport fails some reads with errors, a caller that keeps reading a length-delimited or until-close body receives each error once and all of the data in order, nothing lost or duplicated.", "quantifier": "every placement of any number of errors", "why_tests_cant": "Every error schedule.", "anchors": ["src/protocol.rs: HttpBody::read", "src/io.rs: Take::read, BufReader"]}
{"id": "C32", "title": "require_length accepts exactly delimited bodies", "statement": "require_length fails with LengthRequired iff the body runs to end of stream, i.e. iff the message had neither 'transfer-encoding: chunked' nor a content-length.", "quantifier": "every header set", "why_tests_cant": "All header combinations.", "anchors": ["src/protocol.rs: HttpBody::require_length, HttpBody::new"]}
{"id": "C33", "title": "copy moves every byte in order and reports the count", "statement": "For every reader and writer, copy returns Ok(k) only if the writer received exactly the reader's whole contents, in order, and k is its length; on a read or write error the writer has received a prefix of the reader's contents.", "quantifier": "every reader content and fragmentation, every partial-write schedule, every error position", "why_tests_cant": "Unbounded schedules on both sides.", "anchors": ["src/io.rs: copy, Write::write_all", "src/server.rs: HttpServer::serve_one", "src/client.rs: send_request"]}
{"id": "C34", "title": "read_exact fills the buffer or fails; write_all writes all or fails", "statement": "read_exact(n) succeeds with exactly the next n bytes of the stream, consuming exactly those, iff n bytes arrive before end of stream or a non-retried error; write_all succeeds only if every byte was accepted in order.", "quantifier": "every n, stream, fragmentation, partial-write schedule", "why_tests_cant": "Unbounded schedules.", "anchors": ["src/io.rs: Read::read_exact, Write::write_all"]}
{"id": "C35", "title": "Readers in the io module are faithful to the stream they wrap", "statement": "Slice, Cursor, Empty, Take and BufReader (buffering or not) each deliver exactly their stated contents for every sequence of positive read sizes: the slice's bytes, nothing, the first N bytes of the inner stream, the inner stream.", "quantifier": "every content, every inner reader, every read-size sequence", "why_tests_cant": "Unbounded.", "anchors": ["src/io.rs: Take, BufReader, Cursor, Empty, impl Read for &[u8], Bytes"]}
{"id": "C36", "title": "Buffered writing delivers every byte once, in order", "statement": "Through the buffered writer (std) or the pass-through one (no_std), bytes reach the transport in order without loss or duplication; after a successful flush or into_inner everything written is on the transport, for every partial-write schedule.", "quantifier": "every sequence of writes, every partial-write and error schedule", "why_tests_cant": "Unbounded schedules.", "anchors": ["src/io.rs: BufWriter", "src/protocol.rs: HttpRequest::serialize, OutgoingBody::finish"]}
{"id": "C37", "title": "Requests carry the standard headers, and chunked framing exactly when the method has a body", "statement": "For every http(s) URL and method, the built request carries host = URL host, user-agent = http_io, accept = */*, and transfer-encoding = chunked exactly for DELETE, POST and PUT; and headers the user adds replace same-named ones without touching others.", "quantifier": "every URL, method, sequence of added headers", "why_tests_cant": "All combinations.", "anchors": ["src/client.rs: HttpRequestBuilder::new, HttpRequestBuilder::add_header", "src/protocol.rs: HttpMethod::has_body"]}
{"id": "C38", "title": "The request target contains the URL's path and query", "statement": "For every URL with a query, the request line the client sends contains the path followed by '?' and the query.", "quantifier": "every URL with a query", "why_tests_cant": "All URLs.", "anchors": ["src/client.rs: HttpRequestBuilder::new", "src/protocol.rs: HttpRequest::new"]}
{"id": "C39", "title": "The Host header identifies the URL's authority", "statement": "The host header sent contains the port whenever the URL has a non-default port.", "quantifier": "every URL with an explicit port", "why_tests_cant": "All URLs.", "anchors": ["src/client.rs: HttpRequestBuilder::new", "src/url.rs: HttpUrl::host"]}
{"id": "C40", "title": "Only http and https URLs are accepted", "statement": "Building a request from a URL succeeds iff its scheme is http or https up to case; the port used is the URL's port if given and 80 or 443 otherwise; it never panics for a URL that has a host. Text is accepted iff it is such a URL, and gives UrlError otherwise.", "quantifier": "every URL", "why_tests_cant": "All schemes.", "anchors": ["src/url.rs:50-106"]}
{"id": "C41", "title": "Writing a body to a bodiless request fails and sends nothing", "statement": "For GET, HEAD, OPTIONS and TRACE requests every write (of any data) fails with an error (of kind InvalidInput with std) and puts no byte on the transport; flush succeeds.", "quantifier": "every buffer, method and transport state", "why_tests_cant": "All histories of writes.", "anchors": ["src/protocol.rs: impl Write for OutgoingRequest"]}
{"id": "C42", "title": "The whole request is on the transport before the response is read", "statement": "When finish starts reading the response, the transport has received exactly the request head, the chunk-encoded body and (for methods with a body) the terminating chunk, for every sequence of writes and every partial-write schedule; if any write fails, nothing is read.", "quantifier": "every method, header set, sequence of body writes, partial-write schedule", "why_tests_cant": "Unbounded schedules; a missing flush shows only as a hang.", "anchors": ["src/protocol.rs: HttpRequest::serialize, OutgoingRequest::finish, OutgoingBody::finish"]}
{"id": "C43", "title": "The one-shot client functions return a body only for status 200", "statement": "client::get and client::put return Ok only if the response status is exactly 200 OK, and then the body is the response's body; any other parsed status yields UnexpectedStatus with that status.", "quantifier": "every response", "why_tests_cant": "All statuses and responses.", "anchors": ["src/client.rs: send_request, get, put"]}
{"id": "C44", "title": "One connection per address", "statement": "Over every history of HttpClient requests, the client opens at most one connection per stream address, reuses it for later requests to the same address, and a failed connect or lookup leaves its set of connections unchanged.", "quantifier": "every sequence of requests and connection outcomes", "why_tests_cant": "Unbounded histories.", "anchors": ["src/client.rs: HttpClient::get_stream, HttpClient::get, HttpClient::put"]}
{"id": "C45", "title": "Sequential requests on a reused connection get their own responses (content-length)", "statement": "If each response on a reused connection is content-length delimited and its body is read to the end before the next request, then for every number of requests the k-th request obtains the k-th response's status, headers and body.", "quantifier": "every number of requests, every response content, fragmentation and read-size schedule", "why_tests_cant": "Unbounded histories.", "anchors": ["src/client.rs: HttpClient::get", "src/protocol.rs: OutgoingRequest::finish, HttpResponse::deserialize, HttpBody::read"]}
{"id": "C46", "title": "Sequential requests on a reused connection get their own responses (chunked)", "statement": "If a response on a reused connection is chunked and its body is read to the end, the next request on that connection obtains its own response.", "quantifier": "every chunked response and fragmentation", "why_tests_cant": "Depends on where the transport splits the last bytes.", "anchors": ["src/protocol.rs: HttpChunkedBody::read, HttpBodyChunk::new", "src/client.rs: HttpClient"]}
{"id": "C47", "title": "Abandoned responses do not affect later requests", "statement": "If the caller drops a response before reading its body to the end, the next HttpClient request to the same address still obtains its own response.", "quantifier": "every point at which the caller stops reading", "why_tests_cant": "All partial-read histories.", "anchors": ["src/client.rs: HttpClient::get_stream", "src/protocol.rs: HttpBody"]}
{"id": "C48", "title": "A closed pooled connection is replaced", "statement": "If the server closed a pooled connection, a later request to that address opens a new connection.", "quantifier": "every history in which a pooled connection has been closed", "why_tests_cant": "Histories of any length.", "anchors": ["src/client.rs: HttpClient::get_stream"]}
{"id": "C49", "title": "https goes over TLS with the URL's host verified, and never shares a connection with http", "statement": "connect performs a TLS handshake for the URL's host iff the scheme is https; two URLs share a pooled connection only if resolved address, host and security all agree.", "quantifier": "every pair of URLs and every resolver", "why_tests_cant": "All URL pairs.", "anchors": ["src/client.rs: StreamConnector for TcpStream, StreamId, HttpClient::get_stream"]}
{"id": "C50", "title": "The server dispatches each parsed request to exactly the matching handler method", "statement": "For every request that parses, serve_one calls exactly one handler method, the one for the request's method, with the request's target; if the request does not parse, or is a PUT or POST without a delimited body, no handler method is called.", "quantifier": "every byte stream, handler and handler state", "why_tests_cant": "All requests and all handlers.", "anchors": ["src/server.rs: HttpServer::serve_one_inner"]}
{"id": "C51", "title": "Errors become responses: 411 for a missing length, 500 otherwise", "statement": "A request that fails to parse is answered with status 500, a PUT or POST without content-length or chunked encoding with 411, and a handler's error with the response it converts to.", "quantifier": "every byte stream and handler result", "why_tests_cant": "All malformed requests.", "anchors": ["src/server.rs: From<Error> for HttpResponse, HttpServer::serve_one_inner, HttpServer::serve_one"]}
{"id": "C52", "title": "The server writes exactly one complete response", "statement": "Unless the transport or the response body fails, serve_one writes exactly the response head followed by the whole response body and nothing else; on failure what was written is a prefix of that.", "quantifier": "every request, handler, response body and partial-write schedule", "why_tests_cant": "Unbounded schedules.", "anchors": ["src/server.rs: HttpServer::serve_one", "src/protocol.rs: HttpResponse::serialize", "src/io.rs: copy"]}
{"id": "C53", "title": "Unimplemented methods answer 405", "statement": "A handler method that is not overridden answers 405 Method Not Allowed for every target without reading the body.", "quantifier": "every target and body", "why_tests_cant": "All inputs.", "anchors": ["src/server.rs: HttpRequestHandler default methods"]}
{"id": "C54", "title": "One bad connection does not stop the server", "statement": "serve_forever serves every accepted connection in order; the outcome on one connection does not affect the response on another beyond what the handler itself remembers, and no connection stops the loop.", "quantifier": "every sequence of connections", "why_tests_cant": "Unbounded histories.", "anchors": ["src/server.rs: HttpServer::serve_forever, HttpServer::serve_one"]}
{"id": "C55", "title": "End to end: what the client sends is what the handler gets, and what it answers is what the client gets", "statement": "For every http URL path without whitespace, method, added well-formed headers and sequence of body writes, the server's handler is called with that method and path and can read exactly the written bytes; and the client obtains the status code, headers and body that the handler returned (body to end of stream, or exactly content-length bytes when the handler declares its length).", "quantifier": "every request, body, handler result and every fragmentation in both directions", "why_tests_cant": "Whole-system quantification over inputs and schedules.", "anchors": ["src/client.rs: HttpRequestBuilder, send_request", "src/server.rs: HttpServer::serve_one", "src/protocol.rs"]}
{"id": "C56", "title": "A response to HEAD is not given a body", "statement": "The response obtained for a HEAD request has an empty body, whatever content-length it declares.", "quantifier": "every response to HEAD", "why_tests_cant": "All header sets.", "anchors": ["src/protocol.rs: OutgoingRequest::finish, HttpResponse::deserialize", "src/client.rs: HttpRequestBuilder::head"]}
{"id": "C57", "title": "A TLS stream is only handed out after the handshake completed (rustls)", "statement": "SslClientStream::new and SslListener::accept return a stream only if the TLS handshake has completed, and return an error if the peer closes during the handshake.", "quantifier": "every behaviour of the TLS engine and the transport", "why_tests_cant": "All handshake interleavings.", "anchors": ["src/ssl/rustls.rs: SslClientStream::new, SslListener::get_conn_from_stream"]}
{"id": "C58", "title": "Serialization is deterministic and ordered", "statement": "Headers are written one line each in strictly increasing byte order of their names, each name exactly once, whatever the order in which they were inserted; so two header sets with the same contents serialize identically.", "quantifier": "every insertion history", "why_tests_cant": "All permutations of all histories.", "anchors": ["src/protocol.rs: HttpHeaders::serialize, HttpHeaders::insert"]}
{"id": "C59", "title": "The text parser consumes its input left to right without losing characters", "statement": "For every ASCII text and every sequence of Parser calls, each successful call returns the text at the current position and advances past exactly what it returned (plus the blanks a token swallows); no call panics, and parse_remaining can succeed only once.", "quantifier": "every ASCII text and every sequence of calls", "why_tests_cant": "All call histories.", "anchors": ["src/protocol.rs: Parser"]}
{"id": "C60", "title": "A TLS server accepts a ClientHello in any pieces (rustls)", "statement": "SslListener::accept accepts a client independently of how the transport splits the client's first message into reads.", "quantifier": "every splitting of the ClientHello, every behaviour of the TLS engine", "why_tests_cant": "On a local socket the ClientHello always arrives in one read.", "anchors": ["src/ssl/rustls.rs:160-165 SslListener::get_conn_from_stream"]}
{"id": "C61", "title": "A TLS handshake does not panic (rustls)", "statement": "SslClientStream::new and SslListener::accept never panic, whatever the transport does.", "quantifier": "every behaviour of the transport, every state of the TLS engine", "why_tests_cant": "Requires a transport whose write returns 0 during the handshake.", "anchors": ["src/ssl/rustls.rs:56, 176 assert_ne!"]}
{"id": "C62", "title": "A parsed message can be passed on", "statement": "A request or response that was parsed, written with serialize and parsed again has the same method, target, version, status, headers and body framing, and the second parse stops exactly at the end of the head.", "quantifier": "every message that parses (any bytes), every behaviour of the transports and of the writer", "why_tests_cant": "The messages that parse are an infinite set wider than what the crate writes (folding, repeated headers, strange versions, control characters in names).", "anchors": ["src/protocol.rs:1387-1490 HttpHeader/HttpHeaders", "src/protocol.rs:1588-1630 HttpResponse", "src/protocol.rs:1864-1920 HttpRequest"]}
{"id": "C63", "title": "The std and no_std builds speak the same protocol", "statement": "Given the same bytes and faults from the peer (in any fragmentation, without interrupted calls), both builds parse the same requests and responses with the same outcome, leave the same bytes, and read the same body bytes followed by the end on both or an error on both; and for the same request and writes both put the same bytes on the wire.", "quantifier": "every stream of bytes and faults without interruptions, every fragmentation, every request, every schedule of partial writes and flushes", "why_tests_cant": "The io layer has two implementations that tests exercise one at a time on few inputs.", "anchors": ["src/io.rs", "src/protocol.rs cfg(feature = \"std\")", "src/lib.rs"]}
{"id": "C64", "title": "The end of a request's body is where RFC 7230 says", "statement": "A request that parses has the framing that RFC 7230 section 3.3.3 assigns to its transfer-encoding and content-length headers, and a request for which the RFC demands rejection does not parse. (Otherwise a proxy in front of the server may see other requests than the server: request smuggling.)", "quantifier": "every list of header lines, in any folding and fragmentation", "why_tests_cant": "Concerns all combinations of repeated and malformed framing headers.", "anchors": ["src/protocol.rs:155-167 HttpBody::new", "src/protocol.rs:1864-1887 HttpRequest::deserialize"]}
{"id": "C65", "title": "The end of a response's body is where RFC 7230 says", "statement": "A response (not to HEAD or CONNECT) that parses has the framing that RFC 7230 section 3.3.3 assigns to its status, transfer-encoding and content-length headers; in particular 1xx, 204 and 304 responses have no body. A response for which the RFC demands rejection does not parse.", "quantifier": "every status and every list of header lines, in any folding and fragmentation", "why_tests_cant": "Concerns all combinations of statuses with repeated and malformed framing headers.", "anchors": ["src/protocol.rs:155-167 HttpBody::new", "src/protocol.rs HttpResponse::deserialize"]}
{"id": "C66", "title": "The file server returns what was uploaded", "statement": "The file server of the documentation: a PUT that announces its body (chunked or with a length) and whose body arrives whole is answered with 200, makes the body the content of the file it names and changes nothing else; a later GET of the same target is answered with 200 and exactly that content.", "quantifier": "every file system, root, target, body, announced framing and fragmentation", "why_tests_cant": "The crate's tests do not exercise the example; unbounded product of targets and bodies.", "anchors": ["src/server.rs:4-68 FileHandler", "src/server.rs:199-235 serve_one"]}
{"id": "C67", "title": "The file server stays below its root", "statement": "Whatever requests arrive, what the file server of the documentation answers depends only on the files below its root directory, and nothing outside it changes.", "quantifier": "every byte sequence on every number of connections, every two file systems that agree below the root", "why_tests_cant": "A non-interference statement over all requests and pairs of file systems.", "anchors": ["src/server.rs:31-52 FileHandler::get, put", "examples/server.rs:40-95"]}
{"id": "C68", "title": "A failed upload leaves the old file", "statement": "A PUT to the file server of the documentation that is not answered with 200 leaves every file as it was.", "quantifier": "every request and file system", "why_tests_cant": "Concerns every way an upload can be cut off.", "anchors": ["src/server.rs:43-52 FileHandler::put"]}
{"id": "C69", "title": "A message is accepted exactly when its head is well formed", "statement": "For every byte stream on every transport: deserializing a request succeeds iff the stream begins with a line of three words (method name in any case, target, a word beginning HTTP/d.d), followed by header lines that unfold to `name: value` pairs, then an empty line, with the last content-length, if there is one, an unsigned decimal number below 2^64. The method, target, version and header values returned are those of the text and the stream is left right after the empty line. Likewise for responses, with a status line of a word beginning HTTP/d.d and an unsigned decimal code below 2^32.", "quantifier": "every byte stream, every fragmentation and fault pattern, both I/O layers", "why_tests_cant": "The set of accepted byte strings is infinite and so is its complement; tests sample both.", "anchors": ["src/protocol.rs: HttpRequest::deserialize, HttpResponse::deserialize, HttpHeaders::deserialize, HttpHeader::deserialize, HttpVersion::from_str, HttpStatus::from_str, HttpMethod::from_str"]}
{"id": "C70", "title": "The pooled client against the crate's own server", "statement": "When the peer of HttpClient is the crate's HttpServer, every request made through the client obtains the response of the handler. (False: HttpServer serves one request per connection and closes it, without saying Connection: close; HttpClient keeps the connection and never replaces it. So the first request to an address is answered and every later one fails.)", "quantifier": "all handlers that only read their request, all well-formed answers without a contradicting framing header, all first requests, all lists of later requests to the same address, all ways in which reads and writes are split on both sides, both feature configurations on both sides, all buffer sizes of the caller", "why_tests_cant": "The repository tests client and server against each other with one request per client; a failing second request needs a second request, and that no later request whatever can succeed is a statement about all continuations.", "anchors": ["src/server.rs:199-210", "src/client.rs:250-298"]}
{"id": "C71", "title": "Interim responses are passed over", "statement": "If the peer sends an interim response (1xx other than 101) before the final response to a request, the client returns the final response (RFC 7231 section 6.2). (False: the first response on the connection is taken, its status is 1xx, and the final response is read as its body.)", "quantifier": "every request, every body written, every interim status, every final response, every fragmentation of reads and writes, both I/O layers", "why_tests_cant": "No test server sends an interim response; what follows the interim response is an arbitrary byte string.", "anchors": ["src/protocol.rs:1789-1799 OutgoingRequest::finish", "src/client.rs:299-316 send_request", "src/protocol.rs HttpResponse::deserialize"]}
{"id": "C72", "title": "A sent message is framed as its headers announce", "statement": "Whatever headers the caller adds, the body that a peer reads by the headers of a sent message is the body that was given: for requests what was written to the outgoing request, for responses the body of the handler's response. (False: how the body is sent does not depend on the headers. A request of DELETE, POST or PUT is always sent chunked, a request of another method without a body and a response unencoded, whatever Transfer-Encoding or Content-Length the caller or the handler has set.)", "quantifier": "every request and response with sendable headers, every sequence of writes, every fragmentation, everything that may follow on the connection, both I/O layers on either side", "why_tests_cant": "Whether the framing and the headers agree depends on arbitrary header values, body contents and lengths; the tests never set a framing header by hand.", "anchors": ["src/protocol.rs:1890-1904 HttpRequest::serialize", "src/client.rs:148-151 HttpRequestBuilder::add_header", "src/protocol.rs:1616-1630 HttpResponse::add_header, serialize", "src/server.rs:199-210 serve_one"]}
{"id": "C73", "title": "Header fields are read as RFC 7230 says", "statement": "A block of header fields of the form `name \":\" OWS value OWS` (RFC 7230 section 3.2, no obsolete folding) is accepted, and looking up a name gives the value without the optional white space around it. (False: the colon must be followed by exactly a space, the value must be UTF-8, and blanks after the first are kept as part of the value.)", "quantifier": "every list of fields that conforms, every amount of optional white space, every fragmentation, both I/O layers", "why_tests_cant": "The tests only spell headers as `name: value`; the grammar allows arbitrary blanks and bytes above 0x7F.", "anchors": ["src/protocol.rs:1385-1396 HttpHeader::deserialize", "src/protocol.rs:1458-1492 HttpHeaders::deserialize", "src/protocol.rs CrLfStream"]}
{"id": "C74", "title": "Chunked bodies are read as RFC 7230 says", "statement": "A chunked body of the grammar of RFC 7230 section 4.1 (chunks with optional extensions, last chunk, trailer fields, empty line) is decoded to the data of its chunks, and after its end the stream stands after the empty line. (False: a size line with an extension is an error, and the trailer part and the empty line are never read.)", "quantifier": "every sequence of conforming chunks below 2^64 bytes, every extension, every trailer, every schedule of reads, every fragmentation, both I/O layers", "why_tests_cant": "Extensions, trailers and the position of the stream after the body are not exercised; chunk data and sizes are arbitrary.", "anchors": ["src/protocol.rs:25-140 HttpBodyChunk, HttpChunkedBody"]}
{"id": "C75", "title": "Every conforming request head with a known method is accepted", "statement": "A request head of the grammar of RFC 7230 whose method is one of the seven (and only such) is accepted, with the method, target, version and fields of the text. (False: see C73 for fields; methods are also matched in other cases, `get` is GET.)", "quantifier": "every request line and list of fields that conform, every fragmentation, both I/O layers", "why_tests_cant": "The tests have one or two fixed heads; the grammar is infinite.", "anchors": ["src/protocol.rs:1862-1884 HttpRequest::deserialize", "src/protocol.rs Parser", "src/protocol.rs HttpMethod::from_str"]}
{"id": "C76", "title": "Every conforming response head is accepted", "statement": "A response head of the grammar of RFC 7230, with any reason phrase, is accepted, with the version, status code and fields of the text. (False: a reason phrase that is not UTF-8, and see C73.)", "quantifier": "every status line and list of fields that conform, every fragmentation, both I/O layers", "why_tests_cant": "The tests have one or two fixed heads; the grammar is infinite.", "anchors": ["src/protocol.rs:1586-1614 HttpResponse::deserialize", "src/protocol.rs HttpStatus::from_str"]}
{"id": "C77", "title": "What the client sends is a conforming RFC 7230 message", "statement": "For every http or https URL whose host is a field value and whose path is visible ASCII, every method, every list of added headers (names tokens, values field values) and every sequence of body writes: the bytes on the transport are a request of the grammar of RFC 7230 — request line of version 1.1, fields that conform, no name twice, exactly one Host — followed by a chunked body of the grammar with exactly the written bytes (methods that carry one) or nothing; and unless a framing header was added by hand the headers frame the message as it was sent.", "quantifier": "every URL, method, list of headers, sequence of writes and flushes, transport that accepts any number of bytes per call, both I/O layers", "why_tests_cant": "Tests compare a handful of fixed requests with fixed bytes; conformance is a claim about every header set and every split of the body into writes.", "anchors": ["src/client.rs:124-151 HttpRequestBuilder", "src/protocol.rs HttpRequest::serialize", "src/protocol.rs OutgoingBody, HttpBodyChunk::serialize"]}
{"id": "C78", "title": "What the server sends is a conforming RFC 7230 response head", "statement": "Every response the server sends whose headers are tokens and field values begins with a status line of the grammar of RFC 7230, followed by its fields and an empty line. (False: a status without a name is written as the bare number, without the space that must follow the code; its code may also have any number of digits.)", "quantifier": "every handler that only reads its request, every request, every response status and header set, both I/O layers", "why_tests_cant": "Tests use named statuses; 2^32 codes are possible.", "anchors": ["src/protocol.rs:825-877 Display for HttpStatus", "src/protocol.rs HttpResponse::serialize", "src/server.rs HttpServer::serve_one"]}
{"id": "C79", "title": "No body in answer to HEAD, nor with 1xx, 204, 304", "statement": "In answer to a HEAD request, and with a status 1xx, 204 or 304, the server sends nothing after the head (RFC 7230 section 3.3). (False: the body of the handler's response is always sent; even the default answer to HEAD has one.)", "quantifier": "every handler that only reads its request, every request and response, both I/O layers", "why_tests_cant": "The tests' client closes the connection after one response, so that surplus bytes are not noticed.", "anchors": ["src/server.rs:131-139 HttpRequestHandler::head", "src/server.rs HttpServer::serve_one"]}
{"id": "C80", "title": "A connection that cannot be opened is reported as what failed, and nothing is tried after it", "statement": "client::get, client::put, HttpClient::get and HttpClient::put fail with a parse error for a URL that does not parse or is neither http nor https, before anything is looked up; with AddrNotAvailable if the lookup of the URL's host and port (explicit or the scheme's default) fails or finds nothing; with the error of the connection attempt to the first address found, or of the TLS handshake with the URL's host, otherwise. No further step is taken, and HttpClient keeps the connections it has. Conversely a one-shot request that fails has failed in one of these ways or after a connection was given.", "quantifier": "every URL, every outcome of lookup, connection attempt and handshake, every set of pooled connections, with and without the feature ssl", "why_tests_cant": "Needs lookups, connections and handshakes that fail in chosen ways; the tests use a scripted or local server.", "anchors": ["src/client.rs:206-248 StdTransport", "src/client.rs:264-316 HttpClient::get_stream, send_request", "src/client.rs:330-339,410-419 get, put"]}
{"id": "C81", "title": "The listing file server sends files with their length and directories as listings", "statement": "The server of examples/server.rs answers a GET that names a file below its root with 200, the file's length as content-length, and its contents; one that names a directory with 200 and a page in which every entry whose name is UTF-8 is listed exactly once, marked with a slash if it is a directory, and nothing else is listed. On a connection that takes everything, these bytes are what is sent. The file system stays as it is.", "quantifier": "every file system, root, target that resolves, order in which the operating system gives the entries, request, both I/O layers", "why_tests_cant": "The example has no tests; and the directories and targets are without bound.", "anchors": ["examples/server.rs:37-94 FileHandler"]}
{"id": "C82", "title": "The links of a listing lead to what they name", "statement": "Following the link of an entry in a listing (by RFC 3986, relative to the target of the listing) gives that entry. (False: a directory asked for without a slash at the end is listed all the same, not redirected, and its links lead to the directory above.)", "quantifier": "every file system, directory, entry with a name of unreserved characters, both I/O layers", "why_tests_cant": "Needs a client that resolves links, and each combination of target and directory.", "anchors": ["examples/server.rs:45-69 directory listing"]}
{"id": "C83", "title": "A listing has no markup but the server's", "statement": "The only tags in the page of a listing are those of the template and of its items. (False: names of files and the target are not escaped.)", "quantifier": "every file system, directory and target, both I/O layers", "why_tests_cant": "Whether any name or target breaks out cannot be found by trying some.", "anchors": ["examples/server.rs:48-68 directory listing"]}
{"id": "C84", "title": "What is not there is answered with 404", "statement": "A GET of a target at which there is nothing is answered with 404 Not Found. (False: both file servers turn every error into 500.)", "quantifier": "every file system, root and target at which there is nothing, both I/O layers", "why_tests_cant": "Needs every way in which a path can fail to resolve.", "anchors": ["examples/server.rs:31-35,40-44", "src/server.rs:20-41 documentation", "src/server.rs:81-90 From<Error> for HttpResponse"]}
{"id": "C85", "title": "A response cut short by its own body is recognisable", "statement": "Whoever receives a response can tell whether its body failed on the server before it was complete. (False: what the body gave is sent, and nothing marks that it failed.)", "quantifier": "every handler that only reads its request, response, body that fails after any bytes, reliable connection, both I/O layers", "why_tests_cant": "Needs bodies that fail at every place, and a comparison with all complete responses.", "anchors": ["src/server.rs:199-210 HttpServer::serve_one"]}
{"id": "C86", "title": "The answer depends on nothing but method, target and body", "statement": "What the server answers, what serve_one returns and the handler's state afterwards depend only on the request's method, its target and its body: neither on how the bytes arrive in reads, nor on the version in the request line, nor on any header but the last content-length and the last transfer-encoding, and for methods without a body not on these either, nor on what follows the head.", "quantifier": "every pair of requests, reliable connections of any fragmentation, handler that only reads its request and goes by the content of the body, state of the handler, both I/O layers", "why_tests_cant": "It compares all pairs of requests and all fragmentations.", "anchors": ["src/server.rs:199-260 HttpServer::serve_one, serve_one_inner", "src/protocol.rs HttpRequest::deserialize, HttpBody::new"]}
{"id": "C87", "title": "The length of a message head is bounded", "statement": "There is a bound on the size of the head of a request or response that is kept. (False: lines are read without limit.)", "quantifier": "every request and response, both I/O layers", "why_tests_cant": "A test sends heads of some lengths.", "anchors": ["src/protocol.rs CrLfStream, HttpHeaders::deserialize"]}
{"id": "C88", "title": "A request without Host, or with more than one, is refused", "statement": "As RFC 7230 5.4 demands, a request with no Host header or with more than one is answered with 400. (False: the server ignores Host.)", "quantifier": "every pair of requests that differ in Host headers, handler, reliable connection, both I/O layers", "why_tests_cant": "Needs all requests and handlers.", "anchors": ["src/server.rs:199-260 HttpServer::serve_one, serve_one_inner", "src/protocol.rs HttpRequest::deserialize, HttpBody::new"]}
{"id": "C89", "title": "content_length says how much of the body is left", "statement": "content_length of a body is the number of bytes of it still to come: the number of the content-length header at first, and after reads that number less what was read. (False for chunked bodies with a content-length header: there it is the number of the header, before and after.)", "quantifier": "every message, every sequence of reads, every stream, both I/O layers", "why_tests_cant": "The tests look at the value once, on empty streams.", "anchors": ["src/protocol.rs:183-189 HttpBody::content_length", "src/protocol.rs:1599-1602,1875-1877"]}
{"id": "C90", "title": "A request is read as it was built, whatever its target", "statement": "A request built with HttpRequest::new is read by the peer with the same method, target and headers. (False: the target is sent as it is, and one with blanks or CR LF makes another request of it.)", "quantifier": "every method, text as target, sendable header set, fragmentation, both I/O layers", "why_tests_cant": "Every text is a target.", "anchors": ["src/protocol.rs HttpRequest::new, HttpRequest::serialize, HttpRequest::deserialize"]}
{"id": "C91", "title": "A head that breaks off is reported as what broke it", "statement": "If the transport fails, or ends, in the middle of a message head (within the start line, within a header line, or between lines) and all that came before is in order, parsing the message gives the transport's own error, or UnexpectedEof. The parsers report no other errors than failures that the transport had, as they were, and faults of the bytes.", "quantifier": "every head, every place in it, every failure, every fragmentation, every transport, both I/O layers", "why_tests_cant": "The tests have one truncated head and no transport that fails.", "anchors": ["src/protocol.rs: CrLfStream, HttpHeaders::deserialize, HttpRequest::deserialize, HttpResponse::deserialize"]}
{"id": "C92", "title": "A body that breaks off is reported as what broke it", "statement": "If the transport fails before the end of a body, the reader gets exactly the data that had arrived and then the transport's error, as it was. (False with std: in the size line of a chunk the error becomes one of kind Other.)", "quantifier": "every framing, every body, every place in it, every failure, all buffer sizes, both I/O layers", "why_tests_cant": "No test has a transport that fails.", "anchors": ["src/protocol.rs:71-98 HttpChunkedBody::read", "src/error.rs:70-75"]}
{"id": "C93", "title": "What cannot be sent is reported as what failed", "statement": "Every error a client gets while a request is sent (making it, writing its body, flushing, finishing) is an error that the transport gave, as it was, or says that the transport takes nothing; the errors of finish are these, those that the transport gives when the response is read, and faults of the response. (False with std for requests without a body: what the transport says when the head is sent becomes an error of kind Other.)", "quantifier": "every request, every sequence of calls, every transport and every failure, both I/O layers", "why_tests_cant": "No test has a transport that fails.", "anchors": ["src/protocol.rs:1889-1903 HttpRequest::serialize", "src/protocol.rs:1789-1799,1829-1856", "src/error.rs:60-68"]}
{"id": "C94", "title": "Every TLS back end has the peer proved to be the URL's host", "statement": "With openssl, native-tls and rustls: SslClientStream::new(host, stream) hands out a stream only if the library was told to verify the peer's certificate for that host by the platform's authorities, and did; every failure before is an SslError. A listener passes on the error of a connection that did not come; a handshake that fails on its side is an SslError too. Hence a request of the pooled client to an https URL always goes over a session whose peer proved to be the URL's host.", "quantifier": "every back end, every behaviour of its library, every host, transport and history of requests", "why_tests_cant": "The tests run one back end at a time, with two certificates.", "anchors": ["src/ssl/openssl.rs:8-26", "src/ssl/native_tls.rs:20-31", "src/ssl/rustls.rs:19-73", "src/client.rs:211-226", "src/ssl/openssl.rs:109-114", "src/ssl/native_tls.rs:103-108"]}
{"id": "C95", "title": "A TLS listener presents the certificates it was given", "statement": "A TLS listener has the key of the PEM text given for the key, and presents every certificate of the PEM text given for the certificates, in order, in every session it accepts. (False with openssl, which presents the first only.)", "quantifier": "every back end, every PEM text", "why_tests_cant": "The test certificates are signed by the root: there is no chain to present.", "anchors": ["src/ssl/openssl.rs:85-100", "src/ssl/native_tls.rs:90-94", "src/ssl/rustls.rs:133-154", "src/ssl/openssl.rs:109-114", "src/ssl/native_tls.rs:103-108"]}
{"id": "C96", "title": "Making a TLS listener does not panic", "statement": "SslListener::new returns a listener or an error, whatever texts it is given. (False with rustls: it panics if the text given for the key has no key.)", "quantifier": "every back end, every pair of texts", "why_tests_cant": "The tests give a key.", "anchors": ["src/ssl/rustls.rs:134-139", "src/ssl/openssl.rs:85-100", "src/ssl/native_tls.rs:90-94"]}
{"id": "C97", "title": "A URL with an IP address is connected to at that address", "statement": "A request to an http or https URL whose host is an IPv4 or IPv6 address is sent to that address. (False for IPv6: the address is looked up with its brackets, which no lookup knows.)", "quantifier": "every URL, every network whose lookup is that of std", "why_tests_cant": "The tests connect to localhost by name.", "anchors": ["src/client.rs:228-247", "src/url.rs:81-88"]}
{"id": "C98", "title": "What serve_one reports is what went wrong", "statement": "If serve_one returns an error, it is the error that accept gave, or that the transport gave when the response was written, or that the response's body gave when it was read, or it says that the transport takes nothing. (False with std: errors of accept and errors while the head of the response is written are replaced by an error of kind Other.)", "quantifier": "every handler, every transport, every error of it, with and without std", "why_tests_cant": "The tests' connections do not fail while the response is written.", "anchors": ["src/server.rs:199-210", "src/error.rs:70-75"]}
{"id": "C99", "title": "Schemes are text up to case", "statement": "Scheme::from_str accepts every text. A scheme read from ASCII text displays as that text in lower case, and reading what it displays gives it again. Two ASCII texts are the same scheme iff they are equal up to case.", "quantifier": "every ASCII text (round trip: every value of Scheme)", "why_tests_cant": "All texts.", "anchors": ["src/url.rs:11-41"]}
{"id": "C100", "title": "A client and a server never wait for each other for ever", "statement": "A client of the crate makes a GET or PUT request over a connection to a server of the crate and reads the response. Each direction of the connection holds only a bounded number of bytes (at least two towards the server, one towards the client), a read or write blocks while nothing can be read or written, and bytes move in portions of any size in any order. Then the exchange always ends: only boundedly many steps are possible, and while one side has not finished a step is possible. The client gets the status, headers and body that the handler answered with. (False for a handler that answers a PUT without reading its body.)", "quantifier": "every request, handler, pipe size, order of steps and size of portions; each side with and without std", "why_tests_cant": "Concurrency: all interleavings of two programs and of the operating system, and all buffer sizes; the tests' requests and responses fit into the socket buffers.", "anchors": ["src/client.rs:143-158", "src/protocol.rs:1700-1870", "src/server.rs:199-240", "src/server.rs:43-52"]}
{"id": "C101", "title": "What client::get and client::put report", "statement": "Every error of client::get and client::put has one of these causes, in the order of time, and is what the cause gave: the text is no URL or its scheme is not http or https (ParseError); the address could not be found; no connection could be made; the transport failed or took nothing while the request was sent; the body could not be read; the transport failed while the response was read, or what was read is no response; the response's status is not 200 (UnexpectedStatus with that status). (False for get with std: a failure while the request is sent becomes an error of kind Other.)", "quantifier": "every URL, body, network, transport and failure of them, both I/O layers", "why_tests_cant": "The tests' networks and bodies do not fail.", "anchors": ["src/client.rs:299-316", "src/client.rs:330-339", "src/client.rs:410-419"]}
{"id": "C102", "title": "An upload that breaks off is never taken for a whole one", "statement": "A request with a chunked body is sent and its bytes reach the server only up to some point, with any failures of the transport at any places. If the server takes what it gets for a request, then method, target and headers are exactly those sent: no shortened head is accepted. And a handler that sees the end of the body before it sees an error has received all of the data. In particular this holds for everything the crate's own client uploads.", "quantifier": "every request, every division of the body into chunks, every point at which the bytes stop, every pattern of failures, every sequence of read sizes, with and without std", "why_tests_cant": "Every cut of every request combined with faults at every position; the tests only send whole requests.", "anchors": ["src/protocol.rs:45-97", "src/protocol.rs:1459-1481", "src/protocol.rs:1782-1886", "src/server.rs:213-236"]}
{"id": "C103", "title": "When the server drops a connection, no byte of the request is left unread", "statement": "A request is sent in full and the handler reads the body it is handed to its end. When serve_one drops the connection, every byte of the request has been taken from it. (An operating system answers the closing of a connection with unread data by a reset, which can destroy the response on its way to the client.)", "quantifier": "every request without a body, every body with a content length, every chunked body in every division into chunks, every handler that reads to the end, every way the transport delivers the bytes, with and without std", "why_tests_cant": "What is left in the socket at the moment it is closed is not observable in the tests; with std it depends on how the bytes were segmented.", "anchors": ["src/protocol.rs:45-97", "src/protocol.rs:138-160", "src/server.rs:199-236", "src/io.rs:149-190"]}
{"id": "C104", "title": "A slow client does not keep the server from serving others", "statement": "While one client has connected and not yet sent its whole request, or does not take its answer, the server serves the connections that come after it.", "quantifier": "every handler, every sequence of connections before and after, every beginning of a request head after which the client falls silent, with and without std", "why_tests_cant": "The tests use clients that send their requests at once; a client that never finishes would make the test hang.", "anchors": ["src/server.rs:199-211", "src/server.rs:213-236", "src/server.rs:241-248"]}
{"id": "C105", "title": "The example client prints exactly the body of the response", "statement": "The program examples/client.rs, run with the method GET or PUT, sends the request (for a PUT with the content of the named file as body, or the text itself if there is no such file), and if the status code of the answer is 200 it prints exactly the body of the response and succeeds, however the body is framed. For any other status it prints nothing and fails with that status. For any other method it connects to nothing and fails with the method.", "quantifier": "every URL with scheme http or https and a host, every file or text, every transport that does not fail and every segmentation, every server that answers this request, every status, every body in all three framings, every standard output that does not fail, with and without std", "why_tests_cant": "The examples have no tests at all; the claim quantifies over servers, framings and segmentations.", "anchors": ["examples/client.rs:16-32", "src/client.rs:330-345", "src/client.rs:410-428", "src/io.rs:171-186"]}
{"id": "C106", "title": "If the example client succeeds, it has printed the whole body", "statement": "If examples/client.rs reports success, what it printed is the whole body that the server announced: if the connection ends or fails within the body, the program fails.", "quantifier": "every URL, every file or text, every server that answers with status 200 and breaks off at any point, with and without std", "why_tests_cant": "Nothing tests the examples, and the library's tests contain no connection that breaks off within a response.", "anchors": ["examples/client.rs:16-32", "src/protocol.rs:138-177", "src/io.rs:171-186"]}
{"id": "C107", "title": "The no_std example prints the body of its canned response and says the right request", "statement": "The program examples/no_std.rs, run with a method GET or PUT (in any case) and a URL with scheme http or https, succeeds and prints exactly the 11 bytes `hello world` that its fake connection declares as body, and not the line feed that follows; what it says to the connection is exactly the request, for a PUT with the given text as chunked body. With a method that is unknown or another one, a text that is no URL or a URL of another scheme, it fails with the corresponding error and prints nothing.", "quantifier": "every method text, every URL text and every URL parser, every text as data, every standard output that does not fail", "why_tests_cant": "The example is the only place where the build without std is put to use by a program, and it has no tests.", "anchors": ["examples/no_std.rs:9-16", "examples/no_std.rs:38-109", "src/io.rs:171-186", "src/protocol.rs:1571-1600"]}
{"id": "C108", "title": "The connection reuse example prints all its responses, over one connection", "statement": "The program examples/connection_reuse.rs sends its three requests one after the other over one connection, and prints the bodies of the three responses, in this order and nothing else, however the bodies are framed within the connection.", "quantifier": "every URL with scheme http or https, every peer that answers the three requests, every body, every segmentation, every standard output that does not fail, with and without std", "why_tests_cant": "The example has no tests; whether it works with chunked responses depends on how the bytes are segmented.", "anchors": ["examples/connection_reuse.rs:6-23", "src/client.rs:255-296", "src/protocol.rs:71-97"]}
{"id": "C109", "title": "The advanced client uses TLS for https URLs", "statement": "The program examples/advance_client.rs, which takes http and https URLs, prints the headers and the body of the response, and for an https URL it does so only with what came over TLS.", "quantifier": "every URL, every server at the URL's host and port, every response in every framing, with and without std", "why_tests_cant": "The example has no tests, and a test would have to run a server at port 443.", "anchors": ["examples/advance_client.rs:8-22", "src/url.rs:61-89"]}
{"id": "C110", "title": "The README's program prints the download and uploads the file", "statement": "The program examples/readme.rs (also in README.md) prints exactly the body of the first response, then sends exactly the content of the file on another connection, and succeeds if and only if both servers answer with status 200. If the first server answers with another status, nothing is printed and nothing sent to the second.", "quantifier": "every pair of URLs, every file, every two servers that answer what they are to receive, every status, every framing and segmentation, every standard output that does not fail, with and without std", "why_tests_cant": "The program talks to a public server and is not run by the tests.", "anchors": ["examples/readme.rs:5-14", "src/client.rs:330-338", "src/client.rs:410-419", "src/client.rs:299-316"]}
{"id": "C111", "title": "An https response from the crate's own server is received whole", "statement": "When the crate's server serves a request over TLS, the crate's client gets the status, the headers and the whole body of the response and sees the end of the body, whatever the response declares about its length.", "quantifier": "every request, every handler, every response body, every division into TLS records, every way in which a TLS library reports an end without close_notify, with and without std on either side", "why_tests_cant": "The tests run with whatever TLS library is installed; whether an end without close_notify is an error depends on the library and its version.", "anchors": ["src/server.rs:199-212", "src/ssl/rustls.rs:75-122", "src/ssl/openssl.rs:29-77", "src/ssl/native_tls.rs:34-82", "src/protocol.rs:1572-1586"]}
{"id": "C112", "title": "An https response that is cut off is noticed", "statement": "If the transport below a TLS connection is cut while a response is being sent, so that no close_notify arrives, the client gets an error: from the parser if the head is cut, and else from reading the body, before it sees the end of the body.", "quantifier": "every response in every framing, every point at which it is cut, every division into records, every schedule of reads, every TLS library, with and without std", "why_tests_cant": "The cut can be after any byte, and an attacker chooses it.", "anchors": ["src/ssl/rustls.rs:75-83", "src/ssl/openssl.rs:29-37", "src/ssl/native_tls.rs:34-42", "src/protocol.rs:56-97", "src/protocol.rs:256-273"]}
{"id": "C113", "title": "A client that waits for 100 Continue is answered", "statement": "If a client sends the head of an upload, with `Expect: 100-continue`, and waits for an answer before it sends the body, the server answers: with an interim or with a final response.", "quantifier": "every handler, every target and header set, every division of the head into portions, PUT and POST with every framing and the methods without a body, with and without std", "why_tests_cant": "It is about a client and a server that wait for each other: a test of it does not end, and the tests' client never waits.", "anchors": ["src/server.rs:199-236", "src/protocol.rs:1815-1840"]}
{"id": "C114", "title": "Redirects are followed", "statement": "`client::get` answered with 301, 302, 303, 307 or 308 and a `Location` fetches the page from there, as the repository's own (ignored) test `redirect` expects.", "quantifier": "every URL, every network, every redirect status, every header set, with and without std", "why_tests_cant": "The one test of it is marked as ignored and serves only one request; tests try a status and a location, not all of them.", "anchors": ["src/client.rs:298-339", "src/client.rs:535-567"]}
{"id": "C115", "title": "Every request on a connection is answered", "statement": "A client may send several requests on one connection (HTTP/1.1 keeps connections open by default): each is answered, unless an answer announces with `Connection: close` that it is the last.", "quantifier": "every handler that only reads bodies, every connection that takes what is written, however it cuts up what it delivers, with and without std; every method, target, header set, body, and every continuation of the connection after the request", "why_tests_cant": "The tests send one request per connection. What may follow a request is unbounded.", "anchors": ["src/server.rs:199-235"]}
{"id": "C116", "title": "Requests of another major version are refused", "statement": "A request whose major version is not 1 is answered with 505 HTTP Version Not Supported and does not reach the handler.", "quantifier": "every handler that only reads bodies, every connection that takes what is written, however it cuts up what it delivers, with and without std; every method, target, header set and body, all pairs of versions", "why_tests_cant": "The tests use HTTP/1.1 only; this is a claim about all versions, with all requests.", "anchors": ["src/protocol.rs:545-563", "src/server.rs:213-235"]}
{"id": "C117", "title": "When serve_one succeeds the response is on the wire", "statement": "When `serve_one` returns `Ok`, the whole response has left the server: nothing of it is still in a buffer of the connection.", "quantifier": "every handler that only reads bodies, every connection that takes what is written, however it cuts up what it delivers, with and without std; every request and every response", "why_tests_cant": "The tests' connections (TCP sockets) have no buffer, so nothing is lost there; this is about every implementation of `io::Write` that a `Listen` may give.", "anchors": ["src/server.rs:199-210", "src/io.rs:51-105"]}
{"id": "C118", "title": "The crate's test server holds a client to its script", "statement": "The server of the crate's own tests, given a script: a GET or PUT that is what the next entry expects (method, target, for a PUT also the body) is answered with the entry's status, body and, for a GET, headers, and the entry is used up; so a run of requests in the order of the script succeeds and leaves nothing of the script. A GET or PUT that differs in anything the entry expects, or that comes when the script is used up, makes the server panic before it has sent a byte. The other methods are refused with 405 and use up no entry. `client::get` and `client::put` against such a server return the body of the script. So a test passes (all requests are served, and the check when the handler is dropped succeeds) exactly when the client has made the requests of the script, in its order, no more and no fewer.", "quantifier": "every script, every URL, target, body, header set and status, every connection that takes what is written, however it cuts up what it delivers, with and without std on either side", "why_tests_cant": "It is what the tests rest on: if the test server let a wrong request pass, every test that uses it would prove nothing. The tests run a handful of scripts.", "anchors": ["src/server.rs:250-400", "src/client.rs:343-567"]}
{"id": "C119", "title": "The answer to a request that does not parse repeats nothing of the request", "statement": "When the head of a request does not parse, the server answers 500, and the body of the answer is one of a fixed set of texts: nothing the client sent is in it. In any case a head of ASCII characters cannot put a control character (so no CR or LF) into the answer.", "quantifier": "every request line, every header block (folded or not), every handler that only reads its body, every connection that takes what is written, with and without std, any Debug format of strings that treats ASCII as core does", "why_tests_cant": "No test looks at the body of a 500. What is repeated depends on which of a dozen checks fails first.", "anchors": ["src/server.rs:81-90", "src/error.rs:8-41", "src/protocol.rs:314-414", "src/protocol.rs:1387-1394", "src/protocol.rs:1657-1671"]}
{"id": "C120", "title": "When a client and a server can come to wait for each other for ever", "statement": "A client of the crate makes a PUT request over a connection to a server of the crate; each direction holds a bounded number of bytes, at least one. If the handler does not look at the upload, the exchange always ends exactly if the answer (head and body) fits into the direction to the client, or the encoded body of the upload (its exact size is given) fits into the other. If the handler reads the upload to its end, it always ends exactly if the direction to the server holds at least two bytes, or the answer fits into the other. For any handler it ends if one of the two fits, and for GET always.", "quantifier": "every request, handler that only reads its body, pair of pipe sizes, order of steps and size of portions; each side with and without std", "why_tests_cant": "Whether an exchange hangs depends on the sizes of the buffers of the operating system and on the scheduling; the buffers of a test machine are larger than any test's data.", "anchors": ["src/protocol.rs:1657-1671", "src/protocol.rs:1850-1860", "src/server.rs:60-130"]}
{"id": "C121", "title": "An https URL with an IPv4 address is checked for that address", "statement": "When the host of an https URL is an IPv4 address, the TLS connection is made exactly if the server shows a trusted certificate for that address; when the host is a name, exactly if the certificate is for that name. (False with openssl: the address is checked as if it were a host name, so a certificate for the address is refused.)", "quantifier": "every host, every certificate, the openssl and the native-tls back ends, every library that checks what it is told to check", "why_tests_cant": "The tests of the crate connect to localhost by name; which of the library's checks is asked for cannot be seen from a connection that succeeds.", "anchors": ["src/ssl/openssl.rs:8-26", "src/ssl/native_tls.rs:20-31"]}
{"id": "C122", "title": "The TLS server name is the URL's host, if that is a name", "statement": "In a TLS handshake the client sends the host of the URL as server name (SNI) if it is a host name; if it is an IP address, no server name is sent, as RFC 6066 demands. (False with openssl, which is made to send the address.)", "quantifier": "every host, the three back ends, every library that sends what it is told to send, for rustls every point of the handshake", "why_tests_cant": "A server with one certificate answers whatever the server name is; a test with one server cannot tell.", "anchors": ["src/ssl/openssl.rs:24", "src/ssl/native_tls.rs:20-31", "src/ssl/rustls.rs:44-52"]}
{"id": "C123", "title": "The fragment and the credentials of a URL are told to nobody", "statement": "What the client asks of the resolver and of the operating system, the name it has verified, every byte it sends and the result it returns do not depend on the fragment, the user name or the password of the URL.", "quantifier": "every two URLs that differ at most in these, every method, every network and every server, with and without TLS, every state of a pooled client", "why_tests_cant": "That something is never sent, for all URLs and all ways of sending, takes a proof.", "anchors": ["src/client.rs:124-140", "src/client.rs:228-247", "src/client.rs:299-316", "src/url.rs:43-106"]}
{"id": "C124", "title": "A small message is handed to the transport whole", "statement": "A message that takes less than 8 KiB, head and body, is handed to the transport with a single write, however many writes the caller made, and a request is then flushed once.", "quantifier": "every request and response, every sequence of writes by the caller (without flushes), every transport that takes what it is offered, both builds", "why_tests_cant": "Tests look at the bytes that arrive, not at how they were handed over; and the number of calls depends on every length involved.", "anchors": ["src/protocol.rs:1475-1480", "src/protocol.rs:1620-1625", "src/protocol.rs:1829-1856", "src/protocol.rs:1889-1903", "src/server.rs:206-209", "src/io.rs:70-102", "src/io.rs:125-147"]}
{"id": "C125", "title": "A head that is at hand is read with one call", "statement": "When the transport gives the whole head of a message in answer to the first read, the head is read with that one call, and what came after it is kept for the body.", "quantifier": "every request and response head, every transport and everything that may follow the head, both builds", "why_tests_cant": "Tests see what was parsed, not how often the transport was asked; and the number of calls grows with every byte of the head.", "anchors": ["src/protocol.rs:216-263", "src/protocol.rs:1588-1610", "src/protocol.rs:1864-1887", "src/server.rs:217", "src/io.rs:149-167", "src/io.rs:229-242"]}
{"id": "C126", "title": "A file is sent with its own length, even if it changes", "statement": "When the example server answers a GET for a file, the Content-Length it sends is the length of the body it sends, even if another process changes the file while the request is served.", "quantifier": "every file system before and after the change, every root, target and content, every reliable transport, both builds", "why_tests_cant": "The change has to fall between two system calls of the server; a test cannot arrange that without changing the server.", "anchors": ["examples/server.rs:40-81", "src/server.rs:180-222", "src/protocol.rs:1475-1480"]}
{"id": "C127", "title": "The calls of a chunked read are not nested deeper than the code says", "statement": "HttpChunkedBody::read calls itself; whatever the peer sends, however it arrives and whatever size the caller's buffer has, at most three such calls are under way at a time, so the peer cannot exhaust the stack.", "quantifier": "every state of a chunked body, every stream and fragmentation, every buffer size, both builds", "why_tests_cant": "Depth depends on the bytes of the peer and on the buffer size; tests read with ordinary buffers and short bodies.", "anchors": ["src/protocol.rs:71-98", "src/protocol.rs:45-62"]}
{"id": "C128", "title": "What one read of a body takes from the connection is bounded", "statement": "A read of a body takes from the connection what it gives to the caller and nothing else, except that a chunked body also takes the marks between the chunks; these are of bounded length, so the peer cannot make one read take (and hold in memory) as much as it likes.", "quantifier": "every body, every stream and fragmentation, every buffer that is not empty, both builds", "why_tests_cant": "The amount depends on the bytes of the peer; tests send size lines of a few digits.", "anchors": ["src/protocol.rs:45-62", "src/protocol.rs:71-98", "src/protocol.rs:238-257"]}
{"id": "C129", "title": "A file server sends the file that the target names", "statement": "The file servers of the documentation and of examples/server.rs answer a GET with the file that the request target names by RFC 7230 (5.3) and RFC 3986: the components of its path, with the percent escapes decoded; the query, and the scheme and authority of a target in absolute form, are not part of the name.", "quantifier": "every file system, every root, every target and file it names, both builds", "why_tests_cant": "No test asks a file server for anything but a plain path.", "anchors": ["src/server.rs:31-41", "examples/server.rs:40-81"]}
{"id": "C130", "title": "A directory is listed whatever happens to its entries", "statement": "examples/server.rs answers a GET of a directory with a listing, also if other processes add, replace or remove entries while it is being listed; the entries that are there throughout are in it.", "quantifier": "every file system, every root and target that leads to a directory, every course of changes to the entries between read_dir and the look at each of them, both builds", "why_tests_cant": "The race between read_dir and entry.metadata() is not under a test's control, and there are as many courses as entries.", "anchors": ["examples/server.rs:44-74"]}
{"id": "C131", "title": "A request that is dropped unfinished does not affect later ones", "statement": "If a caller of HttpClient begins a request (get or put), perhaps writes some of a body, and drops it without calling finish, the requests it makes later with the client obtain their own responses.", "quantifier": "every pair of URLs, every sequence of writes before the request is dropped, every transport that takes what it is given, every peer that answers each request it has received in whole, every state of the client's pool, both builds", "why_tests_cant": "The repository's tests finish every request; what a drop leaves on the connection depends on the method, the build and what was written.", "anchors": ["src/client.rs:273-295", "src/protocol.rs:1785-1799", "src/protocol.rs:1846-1856", "src/protocol.rs:1889-1903"]}
{"id": "C132", "title": "An upload that the disk does not take is not answered with 200", "statement": "If the file server of the documentation answers a PUT with 200, the whole body arrived and all of it is in the file, also if the disk takes it in pieces and may fail at any of them; if it fails, the answer is the text of that error, and the file has a beginning of the body.", "quantifier": "every file system, root, target, request body, framing and fragmentation, every disk (pieces taken and failures at any call), reliable connection, both builds", "why_tests_cant": "The repository's tests have no server with files, and a disk that is full at a given byte is hard to come by.", "anchors": ["src/server.rs:43-52", "src/server.rs:81-90", "src/io.rs:171-187"]}
{"id": "C133", "title": "A 405 answer names the allowed methods", "statement": "Every response with status 405 that the server sends has an Allow field (RFC 7231, 6.5.5: a server must generate one). (False: the answers of the methods a handler does not override have no field at all.)", "quantifier": "every handler that only reads its request, every request it gets, reliable connection, both builds", "why_tests_cant": "Which methods a handler leaves at their defaults is open; a test sees the ones it has.", "anchors": ["src/server.rs:111-181"]}
{"id": "C134", "title": "Equality of header sets and statuses", "statement": "Two header sets, each made by starting empty, parsing a block, collecting pairs with lower-case names, and inserting, compare equal exactly when they answer every lookup alike; two statuses read from texts compare equal exactly when their codes are equal.", "quantifier": "every two header sets made in these ways, every readers' contents and failures, every two texts", "why_tests_cant": "Equality derived on the map agrees with the case-insensitive lookup only because every way in lower-cases the names; a test compares a few sets.", "anchors": ["src/protocol.rs:1419-1489", "src/protocol.rs:610-711"]}
{"id": "C135", "title": "A body that has reported its end leaves the connection alone", "statement": "Once a read of a body (with a buffer that is not empty) has reported the end, every further read reports the end again and neither reads from the connection nor changes anything, so that it cannot wait for a peer that has nothing more to say.", "quantifier": "every body in every state, every transport, every sequence of further reads with buffers of all sizes, both builds", "why_tests_cant": "Needs a read after the end, in every state a body can be in, and a look at the connection.", "anchors": ["src/protocol.rs:71-98", "src/protocol.rs:144-152", "src/io.rs:150-223"]}
{"id": "C136", "title": "Every choice of Cargo features builds", "statement": "Whatever features are asked for, the names that depend on them (the modules io, ssl and ssl::inner, std, the TLS crates) are defined exactly once where they are used; and since Cargo unites what all dependents of a crate ask for, asking for more features never breaks a build.", "quantifier": "every list of the crate's features and implied dependencies", "why_tests_cant": "There are 2^11 choices; the repository's script builds four of them.", "anchors": ["Cargo.toml:17-31", "src/ssl/mod.rs:9-21", "src/lib.rs:6-25"]}
{"id": "C137", "title": "A client that keeps a response without reading it holds up the server exactly when the rest does not fit", "statement": "A client that sends a GET or PUT, reads the head of the response and then reads its body a given number of times (or not at all), and keeps the connection open without reading on: the server writes its answer and finishes, whatever the scheduling and however the operating system splits reads and writes, exactly if the body of the answer is at most as long as the pipe to the client holds plus one byte for each of the client's reads, and what the handler leaves unread of the request (nothing of a GET, two bytes of an upload it reads to its end, the whole body of an upload it ignores) fits into the pipe to the server or the whole answer into the other. So the crate's own get_test and put_test, which wait for the server's thread before they read the body, end exactly if the socket buffers 17 bytes.", "quantifier": "every request the client can send, every handler that only reads and reads an upload to its end or not at all, every plain answer, every number and size of reads, every size of the pipes, every schedule and portioning", "why_tests_cant": "The operating system's buffers are much larger than the answers of the tests, and one run is one schedule.", "anchors": ["src/client.rs:342-369", "src/client.rs:422-454", "src/protocol.rs:1588-1611", "src/server.rs:199-232"]}
{"id": "C138", "title": "Clients at the same time are all served exactly when nothing that is left unread fails to fit", "statement": "Any number of clients make GETs and PUTs at the same time to one server, which accepts and serves the connections one after the other; each client reads the head of its answer, reads the body as often as it likes, and then either closes its connection or keeps it open. Whatever the scheduling and however the operating system splits reads and writes, every client gets its own answer, the handler sees the requests in the order of the connections, no connection fails on the server, and the whole ends after a bounded number of steps -- exactly if, for every client, what the handler leaves unread of its request (nothing of a GET, two bytes of an upload it reads to its end, the whole body of an upload it ignores) fits into the pipe to the server or the answer into the other, and, for every client that keeps its connection open, the body of its answer is at most as long as the pipe to it holds plus one byte for each of its reads. In particular clients that close their connections never hold up each other if the handler reads uploads to their end and the pipe holds two bytes.", "quantifier": "every list of clients, requests and answers, every handler that only reads and reads each upload to its end or not at all, every size of the pipes, every schedule and portioning", "why_tests_cant": "The tests run one client at a time, with answers smaller than the system's buffers, and one run is one schedule.", "anchors": ["src/server.rs:199-247", "src/server.rs:254-318", "src/client.rs:160-299", "src/protocol.rs:1588-1611"]}
{"id": "C139", "title": "Exactly the answers to uploads can be lost to a reset", "statement": "The crate's client makes a request and reads the whole answer; the crate's server answers it with a handler that reads uploads to their end. For a GET, whatever the scheduling, when the server drops the connection it has taken every byte of the request, so no reset is provoked. For a PUT, whatever is uploaded and answered and however large the pipes, there is a schedule in which the server has written its answer and dropped the connection while bytes of the request are not taken and the client still waits for part of the answer; an operating system may then discard that part. The same holds for a handler that does not look at uploads, if the body of the upload or the whole answer fits into its pipe, and for a client that reads part of the answer, if it may still wait for some of it when the rest is in the pipe.", "quantifier": "every request and answer, every handler that only reads, every size of the pipes (from 2 bytes up for a handler that reads uploads), every schedule and portioning", "why_tests_cant": "On the loopback device the last two bytes of a request arrive with the rest, and resets are rare and timing dependent.", "anchors": ["src/server.rs:199-232", "src/protocol.rs:22-106", "src/protocol.rs:1846-1856", "src/client.rs:160-299"]}
{"id": "C140", "title": "A request that is not HTTP is blamed on the client", "statement": "A request that the server refuses without asking the handler is answered with a status that begins with 4 (or with 501, if its method is not known).", "quantifier": "every handler, every sequence of events on the connection, every portioning of reads, both configurations", "why_tests_cant": "There are infinitely many ways not to be a request; the tests send a few.", "anchors": ["src/server.rs:79-90", "src/server.rs:108-175", "src/server.rs:199-235"]}
{"id": "C141", "title": "An HttpUrl is its URL", "statement": "Two HttpUrls are equal exactly when they hold the same URL. A text parses to an HttpUrl exactly when it parses to a URL with scheme http or https and a host, and what comes out holds that URL, its scheme and its host. An HttpUrl displays as its URL does, and what it displays parses to it again.", "quantifier": "every URL, every text, every lower-casing that is right on ASCII; the url crate's own parser and printer are parameters", "why_tests_cant": "The tests convert a handful of URLs and never compare two HttpUrls.", "anchors": ["src/url.rs:11-48", "src/url.rs:71-112"]}
{"id": "C142", "title": "A host is reached if any of its addresses accepts a connection", "statement": "When a host has several addresses, client::get, client::put and HttpClient open a connection if one of them accepts it. They use only the first address that the lookup gives; the others make no difference to anything.", "quantifier": "every network (lookup, connect and TLS are arbitrary functions of its state), every URL, every list of addresses, every sequence of requests", "why_tests_cant": "The tests connect to localhost or to a mocked stream, where there is one address.", "anchors": ["src/client.rs:206-248", "src/client.rs:264-271"]}
{"id": "C143", "title": "Requests for one host use the connection that is open for it", "statement": "If an HttpClient has a connection open for the scheme, host and port of a URL, a request for the URL goes over it, opens no other and depends on nothing but that connection. In particular a client that makes any number of requests for one URL holds at most one connection.", "quantifier": "every network, every client state, every request, every number of requests", "why_tests_cant": "It depends on what two lookups of one name return, which tests do not vary.", "anchors": ["src/client.rs:226-248", "src/client.rs:264-271"]}
{"id": "C144", "title": "A server prints a line about each failed connection", "statement": "serve_forever prints the line `Error ` with the debug text of the error for each connection that failed, in the order of the connections, and nothing else. Printing does not change which connections are served, nor how. Whatever the output does, what has been printed is a beginning of the lines about the connections served so far.", "quantifier": "every handler, every sequence of connections, every output, every debug text", "why_tests_cant": "The tests do not run serve_forever to an end nor look at its output.", "anchors": ["src/server.rs:237-247"]}
{"id": "C145", "title": "A server goes on when nobody reads its output", "statement": "What becomes of the server's standard output makes no difference to the connections that serve_forever serves.", "quantifier": "every handler, every sequence of connections, every output", "why_tests_cant": "It needs an output whose reader has gone, and then a connection that fails.", "anchors": ["src/server.rs:237-247"]}
{"id": "C146", "title": "A server that closes the connection says so", "statement": "serve_one closes the connection after its answer, so the answer carries Connection: close (RFC 7230, 6.6: a server that does not support persistent connections must say so in every response).", "quantifier": "every request, every handler that only reads, every response, every transport", "why_tests_cant": "The crate's tests compare bodies and statuses; and it must hold for the answers of every handler and for the server's own.", "anchors": ["src/server.rs:199-232", "src/protocol.rs:1846-1856"]}
{"id": "C147", "title": "A connection that the server said it would close is not used again", "statement": "If a response that came through an HttpClient carries Connection: close, the next request for that address opens a new connection.", "quantifier": "every network, every history of requests and answers, every further request", "why_tests_cant": "It depends on what was answered earlier in the history of a client.", "anchors": ["src/client.rs:253-299"]}
{"id": "C148", "title": "What is uploaded is what is downloaded", "statement": "Clients of this crate visit the file server of its documentation, one after the other or at the same time, with uploads and downloads of files below the root. Whatever the bytes' order and portions on the way and whatever the pipes hold: an upload is answered with 200, a download with 200 and just what the last upload to that place has written (what was there at first if there was none), afterwards the files are those that the uploads have left and no other place has changed, and no visit gets stuck if the pipes hold two bytes to the server and one back. (If clients that come at the same time keep their connections open without reading on, there must be room on the way for the rest of what they are sent.)", "quantifier": "every sequence of uploads (any writes and flushes) and downloads, every file system in which the targets lead to a file or to nothing, different targets that lead to the same place included, every scheduling of every connection, all pipe sizes, all read sizes, io.rs and std::io on either side", "why_tests_cant": "The doc example is not run with a client, and the state after one visit is the start of the next: the possible sequences, contents and schedulings are unbounded.", "anchors": ["src/server.rs:15-53", "src/server.rs:199-232", "src/client.rs:143-170", "src/protocol.rs:1782-1900"]}
{"id": "C149", "title": "What a caller gets depends only on what arrives", "statement": "On two connections that take all that is written and on which the same bytes and faults arrive, the same requests, one after the other and each response read to its end, have the same outcomes, however the connections split what arrives into reads, however little they take per write, and whatever the sizes of the caller's reads.", "quantifier": "every request, every sequence of writes, every sequence of bytes and faults, every fragmentation, every pair of transports, every number of requests", "why_tests_cant": "A test sees one fragmentation, mostly the one of a local socket, where a message arrives in one piece.", "anchors": ["src/protocol.rs:1593-1610", "src/protocol.rs:1785-1857", "src/io.rs:149-175"]}
{"id": "C150", "title": "A connection is used in one direction after the other", "statement": "The server first reads and then writes: once it has begun to answer it reads no more, and if it panics it has written nothing. The client first writes and then reads: once it has begun to read the response it writes no more, and if a request is given up it has read nothing.", "quantifier": "every request and answer, every handler that only reads the body, every caller, every transport with every sequence of faults", "why_tests_cant": "It is about the order of the calls, in every course that faults of the connection and of the handler can bring about; a test over a socket sees the bytes only.", "anchors": ["src/server.rs:196-232", "src/protocol.rs:1785-1857"]}
{"id": "C151", "title": "A peer whose handshake is refused is told so (rustls)", "statement": "If the TLS library refuses what a peer has sent during the handshake (a certificate that does not verify, for example) and has something to say about it, that is sent before the connection is given up.", "quantifier": "every TLS library behind rustls' interface, every transport, every handshake, client and server", "why_tests_cant": "The crate's tests have no handshake that is refused, and the side that is refused sees an error in either case.", "anchors": ["src/ssl/rustls.rs:54-71", "src/ssl/rustls.rs:156-187"]}
{"id": "C152", "title": "A handshake survives an interrupted call (rustls)", "statement": "If a call on the transport is interrupted during the handshake (it fails with kind Interrupted and has had no effect), it is made again: a handshake that completes without interruptions completes with them.", "quantifier": "every TLS library behind rustls' interface, every transport, every handshake, every sequence of interruptions, client and server", "why_tests_cant": "A call is interrupted only when a signal arrives while it waits; the tests install no signal handlers, and no test can place an interruption at every call of a handshake.", "anchors": ["src/ssl/rustls.rs:54-71", "src/ssl/rustls.rs:156-187"]}
{"id": "C153", "title": "No build sends an https request in the clear", "statement": "Whatever Cargo features are chosen, if the crate builds, then over every history of the pooled client a request to an https URL gets a TLS session whose peer proved to be the URL's host.", "quantifier": "every list of features, every back end and behaviour of its library that checks what it is told to check, every network, every history of requests", "why_tests_cant": "A test runs in one build; the builds without a back end have no https tests at all.", "anchors": ["Cargo.toml:17-33", "src/client.rs:206-248", "src/ssl/mod.rs:9-19"]}
{"id": "C154", "title": "A method is only its name, up to ASCII case", "statement": "The first word of an accepted request line is the name of the request's method, up to the case of ASCII letters.", "quantifier": "every text, every stream of bytes and schedule of reads, every case mapping that is Unicode's", "why_tests_cant": "There are ten characters outside ASCII, among more than a million, whose upper case is ASCII; a test would have to think of them.", "anchors": ["src/protocol.rs:1657-1671", "src/protocol.rs:1866-1875"]}
{"id": "C155", "title": "Header lookups match names up to ASCII case", "statement": "A lookup of a name in ASCII answers the value of the last header line whose name is the same up to the case of ASCII letters.", "quantifier": "every request and response, every name in ASCII, every case mapping that is Unicode's", "why_tests_cant": "One character outside ASCII has a lower case in ASCII; tests use ASCII names.", "anchors": ["src/protocol.rs:1378-1396", "src/protocol.rs:1446-1460"]}
{"id": "C156", "title": "A write of a request's body that failed can be repeated", "statement": "The body that a receiver reads from a finished request is what the caller was told: of each buffer the bytes its write reported, and nothing of writes that failed.", "quantifier": "every request with a body, every sequence of writes and flushes with any of them failing, every transport, every receiver", "why_tests_cant": "The failures that do harm come between the pieces of one write; a test has to place one there, know that the caller goes on, and look at what another program makes of the bytes.", "anchors": ["src/protocol.rs:1829-1842", "src/protocol.rs:1849-1854"]}
{"id": "C157", "title": "A request is sent at most once", "statement": "Each request of a client adds to at most one connection, and what it adds is a beginning of its bytes, all of them if there was a response; nothing is sent again, on this or another connection, and at most one connection is tried.", "quantifier": "every history of requests, every network, every connection however its reads and writes fail, every schedule of writes and reads by the callers", "why_tests_cant": "That nothing is repeated has to hold for every place at which a connection can fail; a test tries a few.", "anchors": ["src/client.rs:264-295", "src/client.rs:299-316", "src/protocol.rs:1870-1910"]}
{"id": "C158", "title": "A verdict on a message head is final", "statement": "If the parser of a request or of a response accepts a stream, or refuses it for another reason than that it ended, then it does the same for every stream that begins with it: the same method, target, version or status, the same headers, the same framing of the body, or the same error; and it reads no further.", "quantifier": "every stream, every continuation of it, every way either is cut into reads, both configurations", "why_tests_cant": "A test compares one stream with a few continuations; the ones that change the verdict begin with a space.", "anchors": ["src/protocol.rs:228-262", "src/protocol.rs:1459-1473", "src/protocol.rs:1588-1616", "src/protocol.rs:1864-1900"]}
{"id": "C159", "title": "Nothing is both a request and a response", "statement": "A stream that is accepted as a request is not accepted as a response, and the other way round, also if one goes on where the other ends. So a client gets no response from a peer that sends its request back to it, whatever is in the request's target, headers and body; and a server that is sent a response does not ask its handler for anything.", "quantifier": "every stream, request, body and sequence of writes, every way of cutting them into reads and writes, every upper-casing that is that of Unicode, every handler, both configurations", "why_tests_cant": "The methods are compared after upper-casing, so there are more spellings of them than a test would list, and a body can contain a whole response.", "anchors": ["src/protocol.rs:551-563", "src/protocol.rs:1588-1616", "src/protocol.rs:1657-1671", "src/protocol.rs:1864-1900", "src/server.rs:150-213"]}
{"id": "C160", "title": "What is said over a connection can be told from its bytes", "statement": "If two programs that make requests on a connection, one after the other, send the same bytes, then they have made the same requests, with the same methods, targets, headers and pieces of bodies; if one sends the beginning of what the other sends, it has made the first of the other's requests. So no request can be taken for two, nor two for one, nor a body for a request.", "quantifier": "every number of requests, every method, target, header set and body, every way the bodies are written, every transport, both configurations on either side", "why_tests_cant": "A test compares a few requests; two that are sent as the same bytes have to be searched for.", "anchors": ["src/protocol.rs:1475-1481", "src/protocol.rs:1789-1799", "src/protocol.rs:1828-1857", "src/protocol.rs:1889-1915"]}
{"id": "C161", "title": "A server cannot make a client send anything", "statement": "What a client writes to its connections, and which connections it opens, does not depend on anything it reads. Given the same requests over connections that take what is written in the same way, it writes the same bytes whether it gets a response, a redirect, a refusal, an announcement that the connection will be closed, garbage or nothing: it repeats nothing, follows nothing and holds nothing back. This is so for requests over one connection, for a client with pooled connections and for one-shot requests.", "quantifier": "every sequence of requests, every pair of connections or networks that differ only in what arrives, every way the responses are read, both configurations", "why_tests_cant": "A test has one server; that no response whatever changes what is sent is a statement about pairs of runs.", "anchors": ["src/client.rs:143-145", "src/client.rs:264-316", "src/protocol.rs:1789-1799", "src/protocol.rs:1828-1857"]}
{"id": "C162", "title": "Requests to one server have nothing to do with requests to others", "statement": "Let a client with pooled connections make requests to any servers in any order, and let each of them answer with anything or nothing. For each address, the requests that go to it have the same outcomes, and its connection is left in the same state, as if the client had made only these requests. A connection to which no request goes is not touched.", "quantifier": "every sequence of requests, every use the callers make of them, every client state, every network in which connecting to one address does not affect connecting to another, both configurations", "why_tests_cant": "A test makes a few requests to one or two servers; that no other traffic whatever changes the outcome compares all interleavings with the one without it.", "anchors": ["src/client.rs:251-295"]}
{"id": "C163", "title": "What a server answers can be told from its bytes", "statement": "If two servers answer, whatever they were asked, and have sent the same bytes, then they have given the same answer: the same version, status code, headers and body. If what one sent begins what the other sent, the answers have the same version, code and headers and the one's body begins the other's; and if both say, rightly, how long their bodies are, then neither begins the other.", "quantifier": "every pair of handlers, every request and connection, every response that is given, both configurations on either side", "why_tests_cant": "A test compares a few answers; two that are sent as the same bytes have to be searched for.", "anchors": ["src/protocol.rs:1475-1481", "src/protocol.rs:1620-1624", "src/server.rs:199-211"]}
{"id": "C164", "title": "Safe requests change no files, and repeated ones change none again", "statement": "Of the crate's two file servers: a request other than PUT, and whatever is no request, leaves every file, directory and link as it was (RFC 7231, 4.2.1). A PUT changes at most the place its target leads to. Whatever comes on a connection, if it comes again it is given the same answer and changes nothing more (4.2.2), also when it breaks off. Uploads to different places, mixed with any other requests, leave the same files in whatever order the server takes them.", "quantifier": "every file system, root and target, everything that can arrive on a connection in every fragmentation, every number of connections and every order of them, both file servers, both configurations", "why_tests_cant": "A test tries a few requests in a few orders; that nothing else changes is a claim about all files.", "anchors": ["src/server.rs:15-53", "examples/server.rs:37-94"]}
{"id": "C165", "title": "Chunked framing is used only with peers that understand it", "statement": "A client sends a chunked request only to a server that is known to speak HTTP/1.1 or later (RFC 7230 3.3.1); and a server answers with chunked framing only if its handler says so, so that the file servers never do and clients of HTTP/1.0 can read what they send.", "quantifier": "every URL, method and state of the connection; every handler, request, file system and file server; both configurations", "why_tests_cant": "A test has peers of one version, and what an old server does with a chunk size it takes for content is seen only there.", "anchors": ["src/client.rs:119-144", "src/protocol.rs:1688-1697", "src/protocol.rs:1882-1906", "src/server.rs:81-90", "src/server.rs:199-235"]}
{"id": "C166", "title": "A head that has gone wrong is refused without waiting for its end", "statement": "The parsers of requests and responses ask the transport for more only while some continuation of what has arrived is still acceptable; in particular a bad start line is refused when its end is there and a bad header line when it is known to be over, and nothing beyond the blank line is asked for.", "quantifier": "every prefix of bytes that may have arrived, every transport that has delivered it in any fragmentation, every error that stands in the place of the next byte; both configurations", "why_tests_cant": "Tests hand whole messages over, so whether the parser would have blocked for one more read is not visible; prefixes are infinitely many.", "anchors": ["src/protocol.rs:230-262", "src/protocol.rs:1459-1473", "src/protocol.rs:1588-1610", "src/protocol.rs:1864-1887"]}
{"id": "C167", "title": "Data is passed on as it comes", "statement": "What a client has written to the body of a request and flushed can be read by the server's handler, and what the body of a response has given can be read by the client, before any more is written or given: nothing that is complete is held back until something later is there.", "quantifier": "every chunked request and every sequence of writes and flushes on it; every response of every handler that only reads its request, every amount that its body has given; every partial-write schedule, fragmentation and read-size schedule; both configurations on both sides", "why_tests_cant": "Tests run an upload or a download to its end, so that data which was held back in between cannot be told from data that was not.", "anchors": ["src/protocol.rs:1824-1858", "src/protocol.rs:37-140", "src/server.rs:199-210", "src/io.rs:125-200"]}
{"id": "C168", "title": "A stream that claims more than it was given room for is not believed", "statement": "When the stream under the crate's own io module claims to have read or written more bytes than the buffer it was given holds, the call that asked does not return that number as a success, and the limit of a body never rises; over streams that keep to their room nothing panics, and a limit falls by exactly what was read.", "quantifier": "every implementation of read and write, whatever number they return; every buffer, every limit; builds with and without overflow checks", "why_tests_cant": "The streams of the tests keep the contract of Read and Write; a number that is too large needs a stream made for it, and what a wrapped subtraction does shows in release builds only.", "anchors": ["src/io.rs:24-40", "src/io.rs:59-68", "src/io.rs:171-187", "src/io.rs:212-224", "src/io.rs:229-242"]}
{"id": "C169", "title": "Requests whose header names are not names are refused", "statement": "A request is served only if every header line has a token (RFC 7230 section 3.2.6) for its name, with no white space before the colon (section 3.2.4), and a value without control characters; any other is answered with 400.", "quantifier": "every handler that only reads bodies, every connection that takes what is written, however it cuts up what it delivers, with and without std; every method, target and version, every list of header lines with any of them malformed", "why_tests_cant": "The tests send header lines that conform. That a malformed line changes nothing about the answer is a claim about all pairs of requests with and without it.", "anchors": ["src/protocol.rs:1386-1396", "src/protocol.rs:1459-1480", "src/protocol.rs:1864-1885"]}
{"id": "C170", "title": "An empty line before a message is passed over", "statement": "A server that reads an empty line where a request should begin passes over it and reads the request that follows (RFC 7230 section 3.5), as does a client with a response; and lines that end with a lone line feed are read like lines that end with CR LF.", "quantifier": "every transport that delivers an empty line first, whatever follows and however it is cut up; every handler that only reads bodies; with and without std", "why_tests_cant": "The tests begin every message with its first line. What follows the empty line ranges over all byte streams.", "anchors": ["src/protocol.rs:230-262", "src/protocol.rs:1588-1592", "src/protocol.rs:1864-1868"]}
{"id": "C171", "title": "Of a response only the code, the headers and the body matter", "statement": "Two responses whose status lines have the same code, whose header lines answer every lookup alike and which are followed by the same bytes and failures are both accepted, with equal statuses, equal header sets and bodies that cannot be told apart: the version, whatever it is, is only recorded, and what follows the code in the status line changes nothing.", "quantifier": "every two versions, every code below 2^32, every text after the code, every two lists of header lines with any folding, repetition and order, every two transports however they cut up what they deliver, every byte and failure that follows, with and without std", "why_tests_cant": "The tests read responses of HTTP/1.1 with the usual reasons. This is a claim about all pairs of status lines, with all that may follow.", "anchors": ["src/protocol.rs:1588-1612", "src/protocol.rs:551-563", "src/protocol.rs:1459-1480"]}
{"id": "C172", "title": "What is said about a head that breaks off or is not text", "statement": "If the beginning of a request's head is well formed and the connection then ends before the empty line, or a line comes that is not UTF-8, or there is an empty line in the place of the request line, the server answers 500 with a body that repeats nothing of the request: a fixed text for the first and the last, and for a line that is not text the place where it is not: the number of bytes before it, and how many bytes are wrong or that a character is cut off by the end of the line.", "quantifier": "every handler that only reads bodies, every connection that takes what is written, however it cuts up what it delivers, with and without std; every well-formed beginning with any folding of header lines, every place for the end, every sequence of bytes that is not UTF-8, any Debug format of strings that treats ASCII as core does", "why_tests_cant": "No test of the repository sends a line that is not UTF-8; there are infinitely many of them, with the fault anywhere, in all ways in which UTF-8 can be wrong.", "anchors": ["src/protocol.rs:238-263", "src/protocol.rs:1459-1473", "src/error.rs:8-41", "src/server.rs:81-90"]}
{"id": "C173", "title": "A client keeps a bounded number of connections", "statement": "There is a bound on the number of connections that an `HttpClient` keeps open, and a connection that the peer has closed is not kept.", "quantifier": "every connector, every sequence of GETs and PUTs to any URLs with any use of them by the callers, every outcome of the attempts to connect, with and without std", "why_tests_cant": "The tests use a client for one or two addresses. The number of connections after an arbitrarily long life is a claim about histories of every length.", "anchors": ["src/client.rs:249-264", "src/client.rs:266-273"]}
{"id": "C174", "title": "What was sent before a request is not its response", "statement": "A client that has a connection on which something arrived while no request was outstanding (for instance the 408 of a server that closes an idle connection) does not take it for the response to its next request (RFC 7230 section 6.3 and RFC 9112 section 9.2).", "quantifier": "every connection, new or pooled, every peer, everything it may have sent before the request, every request and its own response, with and without std", "why_tests_cant": "The tests' servers speak only when spoken to. The property is about everything that a peer might have sent.", "anchors": ["src/client.rs:266-273", "src/protocol.rs:1789-1799", "src/protocol.rs:1588-1610"]}
{"id": "C175", "title": "The order of header fields with different names does not matter", "statement": "Two messages with the same first line, the same header fields (possibly folded over several lines) in another order, in which fields of the same name have kept their order, and the same continuation have the same outcome: both are accepted, with equal header sets and the same body, or both are refused with the same error; and a server answers such requests alike (RFC 7230 section 3.2.2).", "quantifier": "every first line, every list of well-formed fields and every reordering of it, every transport however it cuts up what it delivers, every handler that only reads bodies and goes by their content, with and without std", "why_tests_cant": "The tests parse blocks in one order. The claim is about all permutations of all blocks.", "anchors": ["src/protocol.rs:1386-1396", "src/protocol.rs:1459-1480", "src/protocol.rs:1588-1610", "src/protocol.rs:1864-1887"]}
{"id": "C176", "title": "Header fields of the same name can be combined into one", "statement": "A message in which two header fields of the same name are combined into one, with their values separated by a comma, comes to the same as the message with the two fields: the same outcome, body and header values (RFC 7230 section 3.2.2, which allows every intermediary to do this for lists).", "quantifier": "every first line, all header fields in any spelling and folding, any two fields of one name with others between and after them, both messages' fragmentation, requests and responses, every handler that goes by method, target and body, with and without std", "why_tests_cant": "It relates pairs of messages, of which there are infinitely many; the tests have no message with two fields of one name.", "anchors": ["src/protocol.rs:1459-1473", "src/protocol.rs:1514-1522", "src/protocol.rs:1600", "src/protocol.rs:1876", "src/protocol.rs:154-167"]}
{"id": "C177", "title": "What is sent of an upload beside its content is bounded", "statement": "A request takes exactly its head and, for DELETE, POST and PUT, for every write that is not empty its bytes, the hexadecimal digits of their number and four bytes more, and five bytes at the end. So the body takes at most six times its bytes and five, and with writes of at least m bytes at most 20 bytes more for each m bytes, and five.", "quantifier": "every request, every sequence of writes (of any sizes, empty ones included) and flushes, every transport that takes it, with and without std", "why_tests_cant": "It is about all ways to cut a body into writes; the tests compare a few bodies with fixed texts.", "anchors": ["src/protocol.rs:1828-1843", "src/protocol.rs:1845-1856", "src/protocol.rs:1889-1904"]}
{"id": "C178", "title": "The answer to a request that does not parse is not much longer than the request", "statement": "A request whose head is ASCII and does not parse is answered with at most six bytes for each byte of the head, and 200 bytes more: a client cannot make the server send arbitrarily more than it has sent itself.", "quantifier": "every request line and header block (folded or not) of ASCII characters that does not parse, every fragmentation, every handler that only reads its body, every connection that takes what is written, with and without std, any Debug format of strings that treats ASCII as core does", "why_tests_cant": "It is a bound over all malformed requests; the texts of the errors repeat parts of the request, quoted, and the tests have a handful of them.", "anchors": ["src/server.rs:199-217", "src/error.rs:8-41", "src/protocol.rs:1387-1396", "src/protocol.rs:1864-1872"]}
{"id": "C179", "title": "A body is the same however it is framed", "statement": "Two PUT or POST requests with the same target whose bodies arrive whole and hold the same bytes get the same answer and leave the handler in the same state, whatever their other headers are and however each frames its body: with Content-Length, or in chunks cut in any way and with any spelling of the sizes. This holds for every handler that goes by the bytes it reads; both file servers and the handler of the crate's tests are such. Likewise two answers with status 200 and the same content give client::get the same bytes, be they framed with a length, in chunks or by the end of the connection.", "quantifier": "every method, target, two sets of headers, body, cut into chunks, what follows the body, both connections, every handler that goes by the bytes, with and without std", "why_tests_cant": "It compares all framings of all bodies with each other; the tests send each request in one form.", "anchors": ["src/protocol.rs:154-178", "src/protocol.rs:71-98", "src/server.rs:209-231", "src/server.rs:300-317", "examples/server.rs:83-93", "src/client.rs:298-316"]}
{"id": "C180", "title": "The one-shot functions do what a client without an open connection does", "statement": "client::get(url) gives exactly what is obtained by calling get on an HttpClient that has no connection for the URL's address, finishing the request, and taking every status but 200 for an error: the same error, panic, status or body, after the same lookups and connections. client::put(url, body) gives exactly what is obtained from put on such a client by copying the body into the request and finishing it.", "quantifier": "every URL (parsable or not), every network and its state, every body, every such client whatever other connections it has, every failure on the way, with and without std", "why_tests_cant": "It compares two pieces of code on all networks, answers and failures; the tests exercise each on its own against one server.", "anchors": ["src/client.rs:264-295", "src/client.rs:298-316", "src/client.rs:330-339", "src/client.rs:410-419"]}
{"id": "C181", "title": "HEAD is answered as GET, without the body", "statement": "A HEAD request to one of the file servers is answered with the status and headers that GET would have been answered with (RFC 7231 sections 4.1 and 4.3.2: every general-purpose server supports both).", "quantifier": "every target, file system, state, file server, request headers, connection, with and without std; the partial theorem for every handler that does not implement head", "why_tests_cant": "It is about all files and targets; the tests never send HEAD to a file server.", "anchors": ["src/server.rs:131-139", "src/server.rs:31-41", "examples/server.rs:40-81", "src/server.rs:209-235"]}
{"id": "C182", "title": "A request whose conditions are not met changes nothing", "statement": "The file servers do not perform a request whose precondition headers (If-Match, If-None-Match, If-Unmodified-Since) are not met, and do not take a PUT with Content-Range as the whole file (RFC 7232 section 3, RFC 7231 section 4.3.4). (False: both servers see neither; a PUT with If-None-Match: * replaces the file, and a part sent with Content-Range replaces the whole.)", "quantifier": "every method, target, header set, body, framing of it, file system, connection that does not fail, both file servers, both I/O layers", "why_tests_cant": "It is about all header sets; the tests send no condition.", "anchors": ["src/server.rs:209-235", "src/server.rs:31-52", "examples/server.rs:40-95"]}
{"id": "C183", "title": "An upload that makes a file is answered with 201", "statement": "A PUT to the file server that makes a file is answered with 201, one that replaces a file with 200 (RFC 7231 section 4.3.4: the server must say that it has created the resource). (False: both are answered with 200.)", "quantifier": "every file system, root, target, body, framing, connection that does not fail, both I/O layers", "why_tests_cant": "It is about all file systems and targets; the tests never put a file that is not there and look at the status.", "anchors": ["src/server.rs:43-52", "examples/server.rs:83-93"]}
{"id": "C184", "title": "client::put takes every success for one", "statement": "client::put succeeds exactly if the server's answer says that the upload did: its status is one of 200 to 299 (RFC 7231 section 6.3). (False: it succeeds for 200 only; 201 and 204, the usual answers to an upload, are errors.)", "quantifier": "every URL, body, network, connection whose writing side does not fail, status and headers of the answer, both I/O layers", "why_tests_cant": "It is about all statuses; the tests' server only ever answers 200 or an error.", "anchors": ["src/client.rs:299-316", "src/client.rs:410-422"]}
{"id": "C185", "title": "What a chunked body gives is settled for every sequence of bytes", "statement": "Whatever bytes a peer sends as a chunked body before the stream ends or fails, the reader gives exactly the data of the leading complete chunks (each with any two bytes after it), with the data of a cut-off chunk, and then either the end (at the first size line with the value 0) or one error: the unexpected end or the failure within a chunk or a size line, the unexpected end at an empty size line, UTF-8 for a size line that is no text, or the number error for one that is no number below 2^64. Every sequence of bytes is of exactly one of these kinds.", "quantifier": "every sequence of bytes, conforming or not, with the end or any failure that is not repeated after it, every way in which they arrive, every sequence of buffers, both I/O layers", "why_tests_cant": "It is about all byte sequences; the tests have three.", "anchors": ["src/protocol.rs:45-63", "src/protocol.rs:65-99"]}
{"id": "C186", "title": "What the file server does is settled for every sequence of bytes", "statement": "Whatever bytes a connection brings to the documentation's file server before it ends or fails, the result, every byte that is sent back and the files afterwards are those of one rule, and every sequence of bytes falls under exactly one: a head that panics the parser (nothing is sent), an upload without a length (411), a method that is not served (405), a GET of a file (its content), of a directory (an empty answer with 200, and an error to the server's caller), of nothing or without a way (500 with the error of the operating system), a PUT that cannot be stored (500, nothing changed), one whose body ends, be it before its length (stored, 200), one whose chunks are cut off or wrong, or whose body is cut off by a failure (the part stored, 500 with the error), or bytes that are no request (500 with the text of the error of their fault, nothing changed). Served one after the other, connections give the history that follows from these rules, up to the first panic.", "quantifier": "every sequence of bytes, and the end or any failure after it, on every connection that takes what is sent, every list of connections, every file system that is a tree, with symbolic links, both I/O layers", "why_tests_cant": "It is the whole behaviour on all inputs; a test sends some requests and looks at some answers.", "anchors": ["src/server.rs:15-53", "src/server.rs:184-247", "src/protocol.rs:65-99"]}
{"id": "C187", "title": "What client::get and client::put give is settled for every answer", "statement": "Whatever bytes a peer sends before the connection ends or fails, what comes of client::get and client::put is what one rule says, and every sequence of bytes falls under exactly one: a head that panics the parser; a response with another code than 200, which is the error with that status (the named one, if the code has a name); a response with 200, which gives a body with exactly the data that the chunks, the content length or the end of the stream delimit, and then the end, or the error of a chunk that is wrong or cut off, or the failure, if it is within the body; or bytes that are no response, which is the error of their fault (C188). Nothing else that a peer may send changes the result.", "quantifier": "every sequence of bytes, and the end or any failure after it, however cut into pieces, on every connection whose writing side does not fail, every good URL, every body to upload that can be read, every way to read the body that is returned, both I/O layers", "why_tests_cant": "It is the whole behaviour on all answers; a test has some servers send some answers.", "anchors": ["src/client.rs:298-316", "src/client.rs:326-339", "src/client.rs:410-419", "src/protocol.rs:65-99"]}
{"id": "C188", "title": "Which error a head gives that is not accepted", "statement": "Whatever a transport delivers, the error that HttpRequest::deserialize and HttpResponse::deserialize give is what a table of faults says: the first line cannot be read (the stream ends, fails, or the line is no UTF-8), or is empty, or its method is unknown, its target, version or code is missing, a digit of the version is no digit, the code is no number below 2^32; or, after a good first line and any number of good header lines, a line cannot be read or has no colon followed by a space; or everything is well but the last content length is no number below 2^64. One fault always gives the same error, no stream has two, and a stream has none only if its head is accepted or panics the parser. In particular the first fault in the order of the stream decides, except that a bad content length is noticed only after the whole head.", "quantifier": "every transport and everything that it delivers, with failures anywhere, every case mapping, every error, both I/O layers", "why_tests_cant": "A test has one malformed head and looks that it is refused; the table covers all heads that are refused, and says with which error.", "anchors": ["src/protocol.rs:554-570", "src/protocol.rs:819-822", "src/protocol.rs:1387-1402", "src/protocol.rs:1459-1473", "src/protocol.rs:1588-1600", "src/protocol.rs:1659-1670", "src/protocol.rs:1864-1880"]}
{"id": "C189", "title": "What the listing file server does is settled for every sequence of bytes", "statement": "Whatever bytes a connection brings to the file server of examples/server.rs before it ends or fails, the result, every byte that is sent back and the files afterwards are those of one rule, and every sequence of bytes falls under exactly one: a GET of a file is answered with 200, its length in decimal without leading zeros, and its content; a GET of a directory with 200 and the page that has one item for every entry whose name is text, in the order in which the operating system gives them, with a slash after directories; and everything else is what the server of the documentation does (C186). Served one after the other, connections give the history that follows from these rules, up to the first panic.", "quantifier": "every sequence of bytes, and the end or any failure after it, on every connection that takes what is sent, every list of connections, every file system that is a tree, with symbolic links, every order of directory entries, both I/O layers", "why_tests_cant": "It is the whole behaviour on all inputs; the example has no test.", "anchors": ["examples/server.rs:31-35", "examples/server.rs:40-81", "examples/server.rs:83-93", "src/server.rs:184-247"]}
{"id": "C190", "title": "What the example client and the README program print is settled for every answer", "statement": "Whatever bytes a server sends before the connection ends or fails, the example client (GET or PUT) ends in one way and has printed one text. If there is no whole head it panics or fails with the error of the head, having printed nothing; with a status other than 200 it fails with it, having printed nothing; otherwise it prints the data of the body up to its end or failure, and succeeds exactly if the body ends. The program of the README does the same with its first answer; only if that body was read to its end does it go on: it ends with the error of the file if the file cannot be opened, and else as the second answer says, of which it does not look at the body, so that an upload counts as successful even if the answer to it breaks off after the head.", "quantifier": "every sequence of bytes of each server, and the end or any failure after it, every URL that can be asked for, every file or text to upload, every connection and output that takes what is written, both I/O layers", "why_tests_cant": "It is the whole output of the programs for all inputs; the examples have no tests.", "anchors": ["examples/client.rs:16-32", "examples/readme.rs:5-14", "src/client.rs: send_request, get, put"]}
{"id": "C191", "title": "What the general client makes of an answer is settled for every sequence of bytes", "statement": "Whatever bytes a peer sends before the connection ends or fails, waiting for the response to a request comes to exactly one thing: a panic if a header line is cut within a character, the error of the head if it is no head of a response, and else a response with the version and status of its first line, the header set that has each name once, in lower case and in order, with the value of its last line, and the body with the data up to its end or failure. The advanced client of the examples prints exactly these headers, a line feed and this data, whatever the status, and succeeds exactly if the body ends.", "quantifier": "every sequence of bytes of the peer, and the end or any failure after it, every request at any point of its body, every connection and output that takes what is written, every URL that can be asked for, both I/O layers", "why_tests_cant": "It is the whole behaviour on all inputs.", "anchors": ["src/protocol.rs: OutgoingRequest::finish, HttpResponse::deserialize, HttpHeaders::deserialize, HttpBody::new", "examples/advance_client.rs:8-22"]}
{"id": "C192", "title": "What the server makes of a connection is settled for every sequence of bytes and every handler", "statement": "Whatever bytes a connection brings before it ends or fails, they ask exactly one thing of the server, whatever its handler. A header line cut within a character makes it panic with nothing sent; what is no request is answered with 500 and the text of the one error it has; a PUT or POST without a length with 411; none of these reaches the handler. Every other request is one call of the handler's function for the method with the target as sent, and, for PUT and POST, a body with exactly the data that the framing gives, and then the end or the failure. If the handler replies with a response, its head and the data of its body are sent, and the result is the failure of the body if it has one; if it replies with an error, the same holds for the response that it makes of the error; if it panics, nothing is sent.", "quantifier": "every sequence of bytes, and the end or any failure after it, every handler that uses the body only by reading, every connection that takes what is sent, both I/O layers", "why_tests_cant": "It is the whole behaviour of serve_one, over all handlers and all inputs.", "anchors": ["src/server.rs:184-247", "src/protocol.rs: HttpRequest::deserialize, HttpBody::new, HttpBody::require_length"]}
{"id": "C193", "title": "What a server does over its whole life is settled by the bytes it gets and by what its handler is to do", "statement": "Let it be known of a handler what it makes of each request in each state: of a method, a target and, for PUT and POST, the data of the body and whether it ends or fails, in whatever pieces the data comes. Then, whatever connections are accepted or fail to be accepted, one after the other, and whatever bytes each of them brings before it ends or fails, the results of all turns of the server's loop, the bytes sent on every connection and the state of the handler in the end are exactly the one thing that follows from it. A turn whose accept fails is over with that error and changes nothing; requests that are refused do not reach the handler; the loop ends only with a panic.", "quantifier": "every handler that uses the body only by reading and what it is to do, every list of accepted connections and failed accepts, every bytes and end or failure of each connection, both I/O layers", "why_tests_cant": "It speaks of all handlers, all inputs and arbitrarily long lives of a server.", "anchors": ["src/server.rs:184-247"]}
{"id": "C194", "title": "Calling a service over the network is calling it", "statement": "Let a handler provide a service, and let a client with this crate make a request to its server, with any method, added headers and pieces of a body. The bytes that the client sends ask the server for exactly one thing, the call with this method, this target and (for PUT and POST) this data, however the connection ends after them. The server then does what the service does when it is called itself, sends what the service says and is left in the state that the service is left in, and what the client gets is what its rules make of these bytes. So any sequence of calls over connections of their own has the results that calling the service itself has.", "quantifier": "every URL with a sendable path, every method, headers and writes of a client, every handler and the service it provides, every state, every fragmentation in both directions, every pair of I/O layers", "why_tests_cant": "It holds for all services, all requests and all sequences of calls.", "anchors": ["src/client.rs:71-151", "src/server.rs:184-247", "src/protocol.rs: HttpRequest::serialize, HttpRequest::deserialize, OutgoingRequest"]}
{"id": "C195", "title": "Clients that go away lose only their own answers", "statement": "Let a handler provide a service and let the server run over any sequence of accepted and failed connections, which may take any part of what is written to them and fail at any point. Every connection still gets a beginning of exactly the bytes that the service's rules say. A turn reports success only if the rules say success and all of these bytes were sent, and it panics exactly if the rules say so, so a connection that cannot be written to never stops the server. The state of the service afterwards is the same as if every answer had been taken.", "quantifier": "every handler and the service it provides, every sequence of connections, every input and ending of it, every way in which writing to a connection is split up or fails, every state, both I/O layers", "why_tests_cant": "Every point at which a connection may fail, combined over all requests and all sequences of connections, is covered.", "anchors": ["src/server.rs:184-247", "src/protocol.rs: HttpResponse::serialize", "src/io.rs: copy, write_all"]}
{"id": "C196", "title": "A call can be repeated until its answer comes", "statement": "Let a handler provide a service, and let a call be such that making it a second time changes nothing and is answered as the first time (as a PUT that stores its data). A client attempts the call any number of times, each over a connection of its own. Some attempts do not reach the server whole and change nothing, and of any answer only a beginning may be taken. If at least one attempt has reached the server whole then the service is in the state after one call, else it is in the state before it. All attempts are served, each that has arrived whole is sent a beginning of the answer to the call, and its turn is reported as a success only if the whole answer was sent.", "quantifier": "every handler and the service it provides, every call and state for which repeating changes nothing, every sequence of attempts, every way in which the requests arrive and writing fails, both I/O layers", "why_tests_cant": "It holds for all sequences of failures in either direction and for all services.", "anchors": ["src/server.rs:184-247", "src/client.rs:71-151", "src/protocol.rs: HttpRequest::deserialize, HttpResponse::serialize"]}
{"id": "C197", "title": "A call that breaks off on its way asks for nothing else", "statement": "A client makes a request with this crate, with any method, added headers and pieces of a body, and only a beginning of the bytes it sends reaches the server, where the connection ends or fails. Then these bytes ask the server for nothing but this call: there is no request to be read, or it is the same method and target with a body that has a beginning of the data and then fails, or it is the whole call. In particular a shortened target, a dropped header or shortened data never reach a handler as if they were what was sent. So for a service that does not change when the body of a call fails, an attempt that does not make the server panic has either been made whole or is in vain, which is what C196 needs for repeating it.", "quantifier": "every URL with a sendable path, every method, headers and writes of a client, every beginning of the bytes sent, every end of the connection, every service, every pair of I/O layers", "why_tests_cant": "It holds for every place at which any request can break off.", "anchors": ["src/client.rs:71-151", "src/protocol.rs: HttpRequest::serialize, HttpRequest::deserialize, OutgoingBody, HttpBodyChunked", "src/server.rs:199-235"]}
{"id": "C198", "title": "What a client gets of an answer that breaks off is a beginning of the answer", "statement": "A peer sends any bytes at all and only a beginning of them reaches the client, where the connection ends or fails. If the client makes a response of what it has got then it would have made a response of all the bytes, with the same version, status and headers, and the body it has got is a beginning of the body it would have got. If the body came in chunks and no error followed it, or if it is as long as its Content-Length said, then it is the whole body, and no error would have followed that. So a shortened answer never turns into a different one, and a client that checks one of these two knows that it has everything.", "quantifier": "every sequence of bytes, every beginning of it, every way the connection ends in either case, both I/O layers", "why_tests_cant": "It holds for all answers, well formed or not, and all places at which they can break off.", "anchors": ["src/protocol.rs:1588-1610", "src/protocol.rs:29-142"]}
