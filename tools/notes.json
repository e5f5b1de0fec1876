{
"C01": {
"status": "proved",
"note": "All 2^32 codes and every status value; the code table is checked against RFC 2616."
},
"C02": {
"status": "proved",
"note": "Every status, including Unknown(n) for every u32 n."
},
"C03": {
"status": "proved",
"note": "Every Rust string (valid UTF-8); acceptance stated with an independent numeral grammar."
},
"C04": {
"status": "proved",
"note": "Every status; category stated by code ranges."
},
"C05": {
"status": "proved",
"note": "Every ASCII string, any to_uppercase that agrees with ASCII on ASCII."
},
"C06": {
"status": "proved",
"note": "Every Rust string: accepted iff it begins HTTP/d.d."
},
"C07": {
"status": "proved",
"note": "C07_hex_parse, C07_hex_roundtrip: the number parser; C07_size_line, C07_size_roundtrip: the same where a chunk's size line is read."
},
"C08": {
"status": "proved",
"note": "Every transport satisfying the Read contract, both I/O layers."
},
"C09": {
"status": "proved",
"note": "Any two lawful transports with the same event trace; outcome, fields, body kind, body events and remaining stream agree."
},
"C10": {
"status": "proved",
"note": "Every successful parse on every transport; the same head on any other transport gives the same result whatever follows."
},
"C100": {
"status": "partial",
"note": "False for handlers that do not read the body of a PUT (C100_any_handler_false; C120 has the exact condition). C100_completes_partial: all handlers that read it to its end; C100_upload, C100_download: the file server of the documentation."
},
"C101": {
"status": "partial",
"note": "C101_put holds as stated. For get it is false with std (C101_get_false); C101_get_partial: the only other error is one of kind Other, with std, after a connection was made."
},
"C102": {
"status": "proved",
"note": "C102_upload: any chunked request; C102_client: the requests of the crate's client."
},
"C103": {
"status": "partial",
"note": "False for chunked bodies: C103_unread_false. C103_chunked_partial gives what is left; C103_bodiless and C103_length are the cases in which it holds."
},
"C104": {
"status": "partial",
"note": "False for every handler: C104_behind_false. C104_reached_partial says when a connection is reached."
},
"C105": {
"status": "proved",
"note": "The server of the theorem answers only if it received exactly the request specified by RequestFor, so the theorem also says what is sent."
},
"C106": {
"status": "partial",
"note": "False for cut bodies of declared length: C106_cut_false. C106_noticed_partial covers chunked bodies and failing reads."
},
"C107": {
"status": "proved",
"note": "What the fake connection prints itself (a trace of the calls) is left out."
},
"C108": {
"status": "partial",
"note": "False for chunked responses: C108_chunked_false, and without std always (C108_nostd_false). C108_prints_partial: responses of declared length; with std also chunked ones if large reads do not stop before or within the CR LF at their end. C108_refused: URLs it does not take."
},
"C109": {
"status": "partial",
"note": "False for https URLs: C109_tls_false. C109_prints_partial says what it does for every URL."
},
"C11": {
"status": "partial",
"note": "False of the code: C11_no_panic_false gives byte streams that panic the parsers (string slice inside a character). C11_request_panics_iff and C11_response_panics_iff say exactly which streams panic, on every transport with any faults: a whole start line whose version word is cut by a character, or an accepted start line and header lines of which the first that is not accepted has a byte above 0x7F right after its first colon (even if the head never completes). C11_ascii_partial: no all-ASCII stream does; C11_header_line_iff: which header lines."
},
"C110": {
"status": "proved",
"note": "The servers of the theorem answer only what is exactly the request; the file may be any reader that ends."
},
"C111": {
"status": "partial",
"note": "False with TLS libraries that report a missing close_notify: C111_unnotified_false. C111_received_partial says exactly what the client gets in every case."
},
"C112": {
"status": "partial",
"note": "False with TLS libraries that do not report a missing close_notify: C112_lenient_false. C112_strict_partial: all others."
},
"C113": {
"status": "partial",
"note": "False for handlers that read the body: C113_waits, C113_continue_false. C113_answers_partial, C113_refused: the other cases."
},
"C114": {
"status": "partial",
"note": "False: C114_redirect_false. C114_redirect_partial: every redirect is reported as an unexpected status after one connection."
},
"C115": {
"status": "partial",
"note": "False: C115_all_answered_false. C115_first_partial: the first request is answered, and as if nothing followed it."
},
"C116": {
"status": "partial",
"note": "False: C116_version_false. C116_version_partial: the version of a request makes no difference."
},
"C117": {
"status": "partial",
"note": "False: C117_wire_false. C117_wire_partial: true of connections that keep nothing back."
},
"C118": {
"status": "proved",
"note": "Both handlers of the crate's tests; whole scripts through serve_forever; both ends of the get and put tests. What the body of a GET is, is not checked by the test server."
},
"C119": {
"status": "partial",
"note": "False: the unknown method and a header line without colon are repeated whole (C119_fixed_false). Proved: the complete list of texts with what each repeats (C119_complaint_partial), the exact answers in the two cases of unbounded length, and that ASCII heads lead to printable ASCII only. How the Debug format treats other characters is a parameter; errors of the stream itself (connection breaks, a line is not UTF-8): C172."
},
"C12": {
"status": "proved",
"note": "Every insertion history, every spelling."
},
"C120": {
"status": "proved",
"note": "C120_unread, C120_read: exact; C120_fits: every handler. The pipes are two queues (Model/Pipes); a program that has finished has closed its end, and what is still sent to it is dropped."
},
"C121": {
"status": "partial",
"note": "False with openssl: C121_address, C121_false. C121_openssl_partial: exactly which certificates openssl takes. C121_native: native-tls does as stated."
},
"C122": {
"status": "partial",
"note": "False with openssl for IP addresses: C122_false. C122_openssl_partial: openssl always sends the host. C122_native, C122_rustls: as stated."
},
"C123": {
"status": "proved",
"note": "The request, the address looked up and connected to, and the results of client::get, client::put and of a pooled client are equal for URLs that differ only in fragment, user name and password."
},
"C124": {
"status": "partial",
"note": "Proved for requests with std: one write and one flush (C124_buffered). False for every response (C124_response_false) and without std (C124_request_false); the exact sequence of calls is proved for these (C124_response_partial, C124_respond_partial, C124_unbuffered)."
},
"C125": {
"status": "partial",
"note": "Proved for requests with std (C125_request). False for every response in both builds (C125_response_false): one one-byte read per byte (C125_response_partial, C125_response_any); likewise for requests without std (C125_request_unbuffered_partial)."
},
"C126": {
"status": "partial",
"note": "False: C126_length_false (whenever the lengths differ), C126_grown_false, C126_next_false, C126_next_std_false. What is sent and received instead: C126_sent_partial, C126_received_partial."
},
"C127": {
"status": "partial",
"note": "At most three nested calls for every buffer that is not empty (C127_nonempty_partial). False for empty buffers (C127_empty_false). C127_step and C127_calls tie the counted calls to the code of read."
},
"C128": {
"status": "partial",
"note": "Bodies that are not chunked: exactly what is given (C128_plain). Chunked: at most the end of a chunk and one size line beside it (C128_chunked_partial). The size line is unbounded (C128_size_false)."
},
"C129": {
"status": "partial",
"note": "False for targets with an escape, a query, or in absolute form (three _false theorems). C129_plain_partial: for every other target both servers send the file it names, with status 200."
},
"C13": {
"status": "partial",
"note": "False of the code: FromIterator (hence http_headers!) keeps the given case, so get cannot find an upper-case name (C13_collect_false). C13_lookup: what get gives for any collection, the last value whose name is the name asked for in lower case, letter by letter. C13_collect_partial: the property for collections whose names are lower case."
},
"C130": {
"status": "partial",
"note": "False when an entry vanishes between read_dir and metadata (C130_vanished_false for every such course, C130_removed_false a concrete one). C130_listed_partial: in every other case (C130_cases) the listing is sent, with exactly the names read_dir gave. C130_still ties this model to that of C81."
},
"C131": {
"status": "partial",
"note": "False as stated: C131_get_false (the next request obtains the dropped GET's response) and C131_put_false (the server reads the next request's first line as a chunk size, and its body fails after the data written), both for all requests, with and without std. C131_others_partial: requests to other addresses are not affected, whatever is done with the request."
},
"C132": {
"status": "proved",
"note": "C132_answer, for every disk (any lawful writer) and any body, on a connection that does not fail: either 200 and the whole body in the file, or the error's text and a beginning of it."
},
"C133": {
"status": "partial",
"note": "False as stated: C133_default_false, for every handler and each method it does not override. C133_own_partial: the handler's own 405 responses are sent with the Allow field they have."
},
"C134": {
"status": "proved",
"note": "C134_headers, C134_status. C134_collected shows that the restriction to lower-case names for collected pairs is needed."
},
"C135": {
"status": "partial",
"note": "True of chunked bodies (C135_chunked_partial) and of bodies with a length, once nothing is left of it (C135_length_partial). False of all other bodies that have reported an end: C135_asks_again_false."
},
"C136": {
"status": "partial",
"note": "False as stated: C136_additive_false. C136_builds characterises the choices that build, C136_added_partial the features that can be added. What does not depend on features is taken to compile."
},
"C137": {
"status": "proved",
"note": "C137_exact is the equivalence; C137_needed/C137_enough extend the halves to handlers that stop anywhere in an upload; C137_test is the crate's test server. Answers without the chunked coding (all that the server's handlers of the crate produce)."
},
"C138": {
"status": "proved",
"note": "C138_exact is the equivalence, for handlers that read an upload to its end or not at all and for plain answers; the operating system keeps any number of connections waiting and accept yields them in a fixed order."
},
"C139": {
"status": "proved",
"note": "C139_exact is the equivalence, for plain answers and any client that may still wait for something when the rest of the answer is in the pipe. An upload that is ignored must fit into its pipe unless the answer fits into the other. C103 is the same fact for the server alone."
},
"C14": {
"status": "proved",
"note": "Every well-formed header map over every transport."
},
"C140": {
"status": "partial",
"note": "False for every request that is not well formed (C140_malformed_false): the answer is 500. C140_refused_partial proves the rest, from the grammar of requests alone."
},
"C141": {
"status": "proved",
"note": "The laws of the url crate are hypotheses: schemes are lower case, and what a Url displays parses to it again."
},
"C142": {
"status": "partial",
"note": "False as stated: only the first address is tried, where TcpStream::connect with the name would try them all. What is proved says exactly when a connection is opened."
},
"C143": {
"status": "partial",
"note": "False as stated: the pool is keyed by the address that the lookup gives, and the lookup is made for every request. What is proved says what happens for each outcome of the lookup."
},
"C144": {
"status": "proved",
"note": "The debug text is a function of the error's variant; the texts that errors carry are not in the model."
},
"C145": {
"status": "partial",
"note": "False as stated: println! panics when standard output cannot be written. What is proved says exactly where the server stops."
},
"C146": {
"status": "partial",
"note": "False as stated: the server adds no header. What is proved is the equivalence with what the handler says."
},
"C147": {
"status": "partial",
"note": "False as stated: no header of a response has an effect on the pool. What is proved says exactly when a connection is opened."
},
"C148": {
"status": "proved",
"note": "C148_answers, C148_stored and C148_goes_on are about visits one after the other (Sessions, with every scheduling inside a visit), C148_possible shows that there are such visits, and C148_at_once is for clients at the same time, by C138. The disk does not fail (C132 is about disks that do)."
},
"C149": {
"status": "partial",
"note": "False as stated with std from the second request on: the BufReader around a body reads ahead and what it has read ahead is dropped with the response. Proved for one request in both configurations and for every number of requests without std."
},
"C15": {
"status": "proved",
"note": "Every block of header lines."
},
"C150": {
"status": "proved",
"note": "Handlers that use the body only by reading it (OnlyReads); a response's body does not read from the connection (in the code it can borrow the handler only, not the stream)."
},
"C151": {
"status": "partial",
"note": "False as stated: `process_new_packets()?` leaves the loop without a last write_tls. What is proved is that this is so for every library and transport, and that the handshake ends with an error at once."
},
"C152": {
"status": "partial",
"note": "False as stated: `write_tls(..)?`, `read_tls(..)?` and `acceptor.read_tls(..)?` pass Interrupted on like any other failure. What is proved is the exact outcome for every library, transport and sequence of interruptions."
},
"C153": {
"status": "partial",
"note": "False as stated: a build with std and without ssl takes https URLs and speaks plain HTTP to the host's port 443. Proved for every choice of features that brings a back end; C153_backed and C153_clear say what the others do."
},
"C154": {
"status": "partial",
"note": "False as stated: str::to_uppercase is Unicode's, so `PO\u017fT` and `PO\ufb06` are POST and `OPT\u0131ON\u017f` is OPTIONS. Proved: exactly which texts are taken for a method, and that five of the seven have no spellings outside ASCII."
},
"C155": {
"status": "partial",
"note": "False as stated: the kelvin sign's lower case is k, so `Coo\u212aie` answers the lookup of cookie. Proved: exactly which lines answer, and the claim in full for names without k; among them the two that say where a body ends, so the framing of a message cannot be changed by lookalikes."
},
"C156": {
"status": "partial",
"note": "False as stated: `OutgoingBody` does not remember that a chunk was begun, so a repeated write starts a second size line behind the beginning of the first; witness for both configurations where the receiver decodes other data without an error. Proved where failed writes had handed on nothing, and for small requests with std."
},
"C157": {
"status": "proved",
"note": "For a pooled client over any history, including requests that fail at any point and are dropped with a buffer not yet emptied; and at most one connection attempt for each request, also in the functions that make one request. For these also that the connection was given the request exactly once if there was a response (for transports whose write_all, if it overrides the provided one, does not report interruptions)."
},
"C158": {
"status": "partial",
"note": "False as stated: a header line at the end of the stream is refused as no header although it could be continued, and with the continuation it is accepted. Proved whenever something of the stream is left, or the verdict is not `UnexpectedEof` or `ParseError`."
},
"C159": {
"status": "proved",
"note": "`C159_disjoint` is from the languages of both kinds of message (C69), with the upper-casing of Unicode; the others need only that upper-casing does to ASCII what it should."
},
"C16": {
"status": "partial",
"note": "False of the code: a value containing CR LF injects headers (C16_injection_false). C16_exactly: a header with a proper name arrives as it was added exactly if its value has no CR LF; C16_no_injection_partial is one direction of that, C16_values: no value read from a peer has a CR LF."
},
"C160": {
"status": "partial",
"note": "False as stated (`C160_split_false`): the value of a header is sent as it is, and with CR LF in it one request is the same bytes as two. Proved for all sequences of requests whose targets and headers have none of the characters that separate them; bodies may have anything in them."
},
"C161": {
"status": "proved",
"note": "A relation between runs: connections related by `Unheard` take writes in the same way, and reading from either does not change that. `C161_socket` is the case of sockets with separate halves. The requests are fixed beforehand: what the caller does with a response is its own affair. For one-shot requests the connection is in view only if a body is handed out; on failure the world (lookups and connections made) is the same."
},
"C162": {
"status": "proved",
"note": "A relation between the run with all requests and the run with those for one address only. `Separate` says what has to be so of the network: what there is to know about an address is not changed by connecting to another, and lookups depend on the URL alone."
},
"C163": {
"status": "partial",
"note": "False as stated (`C163_answer_false`): the value of a header is sent as it is, and with CR LF in it one answer is the same bytes as another with a body. Proved for all pairs of servers whose headers have none of the characters that separate them; bodies may have anything in them. Versions are two digits, as `C52_versions` says those of the library are."
},
"C164": {
"status": "proved",
"note": "C164_order is for connections none of which makes the parser panic (C11: a panic ends the server, so what comes after it is not served). C164_again: connections that take all that is written. The answers may depend on the order, the files do not (example beside C164_order)."
},
"C165": {
"status": "partial",
"note": "The client's half is false (`C165_old_false`): a PUT is chunked although the server has just said, on the same connection, that it speaks HTTP/1.0. What holds for clients: requests without a body are never chunked, DELETE, POST and PUT always, whatever came before. The server's half is proved."
},
"C166": {
"status": "partial",
"note": "False as it stands (`C166_start_false`, `C166_header_false`): `( ` begins no request and `X` no response, and the parser waits for the end of the line; `a:b` is never a header line, and the parser waits for the whole of the next line. What holds is an exact characterisation, by `HeadOpen`, of the prefixes after which the parsers wait: a start line is judged when whole, each header line when the line after it is whole, and the blank line ends it. From any stream the parsers take exactly the shortest beginning after which they need not wait, whatever they make of it and whatever follows (`C166_request_taken`, `C166_response_taken`, `C166_decided`)."
},
"C167": {
"status": "partial",
"note": "Uploads: proved (`C167_upload`). Downloads: false as stated (`C167_download_false`): `serve_one` never flushes, so that a connection which sends only when flushed has sent nothing; over a connection that keeps nothing back it holds (`C167_download_partial`). That a reader does not wait is said by putting an error in the place of what comes next: all of the data come before the error."
},
"C168": {
"status": "partial",
"note": "False as stated (`C168_false`): `Take::read` returns any number up to its limit, however small the buffer, and without overflow checks any number at all, after which the limit has risen. Proved: `read_exact`, `write_all` and `copy` panic (`C168_overclaim_partial`), with checks the limit never rises (`C168_limit_partial`), over honest streams all is as it should be (`C168_honest`). `C168_readers` and `C168_writers`: the readers and writers of the rest of the model are honest and these functions agree with the model's."
},
"C169": {
"status": "partial",
"note": "False (`C169_false`): such requests are served. What holds: a line with a name that is no token has no effect; the request is answered as it is without the line (`C169_names_partial` for ASCII names, `C169_unicode_partial` for all names under Unicode's case mapping, `C169_blank_partial` for white space before the colon)."
},
"C17": {
"status": "proved",
"note": "Every line, every block and every message with a malformed header line: no header set is returned. The failure is an error or, when a byte above 0x7F follows the first colon, a panic (C11_header_line_iff)."
},
"C170": {
"status": "partial",
"note": "False (`C170_false`). What holds: the empty line is taken for the end of the head; the parser takes the two bytes, reports UnexpectedEof and leaves what follows unread (`C170_request_partial`, `C170_response_partial`), and the server answers 500 (`C170_answer_partial`). Without any CR LF the parsers read to the end of the stream and report that (`C170_lf_partial`)."
},
"C171": {
"status": "proved",
"note": "C171_response. It also says that a response of HTTP/2.0 or HTTP/0.9 is taken for one of HTTP/1.1 (as C116 says of requests)."
},
"C172": {
"status": "proved",
"note": "C172_end, C172_text, C172_blank; C172_where: the place is determined, and there is one exactly if the bytes are not text. The validator of core (run_utf8_validation) is modelled with its error positions. Texts of the transport's own errors (std::io::Error) are not modelled."
},
"C173": {
"status": "partial",
"note": "False (`C173_false`): after requests to enough hosts there are more connections than any bound, all closed by the peer. What holds: the connections kept are exactly those ever opened, one for each address (`C173_kept_partial`), and none is given up (`C173_never_less_partial`)."
},
"C174": {
"status": "partial",
"note": "False (`C174_false`). C174_joined_partial says exactly what happens, whatever was sent before: the request obtains what is read from that and its own answer put together, as if the peer had answered with both. C174_early_partial: with nothing sent before, the request obtains its own response; if what was sent begins with a response of declared length it obtains that one; if it does not begin with an H it obtains none. C174_shift_false: without std every later request on the connection obtains the answer to the one before it."
},
"C175": {
"status": "proved",
"note": "C175_request, C175_response, C175_answer. Names are compared in lower case (CaseMap), as the code does."
},
"C176": {
"status": "partial",
"note": "False (`C176_false`). Exactly what differs: under the name of the two fields the second value is found instead of both, unless another field of the name follows, and nothing else differs (`C176_headers_partial`); outcome, body and answer are the same for every name but content-length and transfer-encoding (`C176_request_partial`, `C176_response_partial`, `C176_answer_partial`); two lengths in one field are always refused (`C176_length_partial`); two codings are framed alike exactly if the second is not chunked (`C176_coding_partial`)."
},
"C177": {
"status": "proved",
"note": "For every lawful writer and every cut of the body; that the factor six is reached is shown beside the theorem for every number of one-byte writes."
},
"C178": {
"status": "proved",
"note": "C178_short, from the list of all complaints of C119. Beside it: the factor six is reached by control characters, for every number of them. The text of an error is given by its kind and payload (htext), as in C119."
},
"C179": {
"status": "proved",
"note": "Bodies that are cut off are not alike: in chunks that is an error, with a length it is not noticed (C25, C30)."
},
"C18": {
"status": "proved",
"note": "Serialization over every partial-write schedule, parse over every fragmentation, and the two composed. 'Well-formed' includes that a content-length header, if present, is a u64 (LengthOk); otherwise the parse fails by C20_bad_length."
},
"C180": {
"status": "proved",
"note": "If the client has a connection for the address it is used instead of a new one (C44)."
},
"C181": {
"status": "partial",
"note": "False, for every target (`C181_never_false`): the file servers leave head at its default. `C181_head_partial`: every HEAD request gets the same 405 and changes nothing."
},
"C182": {
"status": "partial",
"note": "False (`C182_condition_false`, `C182_range_false`): handlers never see the headers. `C182_ignored_partial`: two requests with the same method, target and body get the same answer and leave the same files, whatever other headers they have."
},
"C183": {
"status": "partial",
"note": "False for every upload that makes a file (`C183_created_false`). `C183_same_partial`: every whole upload is stored and answered with the same bytes, whatever was there."
},
"C184": {
"status": "partial",
"note": "False (`C184_success_false`: 201, 204). `C184_status_partial`: success exactly for 200; the other success statuses come as UnexpectedStatus with the status, so that the two together are exactly the statuses 200 to 299."
},
"C185": {
"status": "proved",
"note": "The rules are an inductive relation of their own on bytes (`Dechunks`), total and functional; with std the errors of a size line all have the kind Other, also a failure of the transport within it. A failure that is repeated (Interrupted, with std) is no failure: `Final`."
},
"C186": {
"status": "proved",
"note": "The disk takes everything (a disk that fails: C132). The error that answers bytes that are no request is that of C188; its text is the matter of C119. The failure of the connection is none that std repeats (`Final`), and not the crate's own LengthRequired, which would be answered with 411 (C51)."
},
"C187": {
"status": "proved",
"note": "The connection is made and takes what is written (a failure to connect: C80; to write: C93). The error of bytes that are no response is that of C188. The failure that may follow the bytes is none that std repeats (`Final`)."
},
"C188": {
"status": "proved",
"note": "Heads only; the errors of bodies are C185's. Heads that panic the parser (C11) have no error."
},
"C189": {
"status": "proved",
"note": "As C186: the disk takes everything, the failure of the connection is none that std repeats, and not LengthRequired. Files that change while they are served are C126 and C130; what is printed is C145."
},
"C19": {
"status": "proved",
"note": "Same as C18 for responses; every status. 'Well-formed' includes LengthOk as in C18."
},
"C190": {
"status": "proved",
"note": "Every answer has exactly one fate: C187_total, C187_unique. Other methods: C105_method. The failure of the connection is none that std repeats; standard output that fails is C109's and C33's matter."
},
"C191": {
"status": "proved",
"note": "C187 is the case of the one-shot functions, which look at the status. The failure of the connection is none that std repeats. The text of the headers in the advanced client is a parameter ({:#?}); it connects to the port of an https URL without TLS (C109)."
},
"C192": {
"status": "proved",
"note": "C186 and C189 are the cases of the two file servers. A response body that goes on for ever is never sent in full and is left out (SentReply); so are versions with numbers above 9, which a handler could give. The failure of the connection is none that std repeats, and for malformed input not LengthRequired."
},
"C193": {
"status": "proved",
"note": "Provides is what the author of a handler has to show; storeHandler_provides shows it for a handler that keeps an uploaded text, which is the witness. As in C192, bodies of responses that never end are left out."
},
"C194": {
"status": "proved",
"note": "C55 speaks of one response that the handler gives; here the response may be anything that can be sent, also one that breaks off or that the client refuses, and the handler's state is followed. The query of the URL is not sent (C38), so it is no part of the call."
},
"C195": {
"status": "proved",
"note": "C193 without its hypothesis that connections take what is written. The clients' choice is in the writer, so nothing is assumed of it beyond the law of `Write`."
},
"C196": {
"status": "proved",
"note": "That the bytes that the client sends ask for the call and for nothing else (AsksWholly) is C194_asks. An attempt that breaks off where the server panics (C11) is not in vain in this sense: it ends the loop. What an upload that breaks off can come to is C102."
},
"C197": {
"status": "proved",
"note": "C102 speaks of what a handler sees that reads the body of an upload; here it is said of all methods and of what the bytes ask for. At which beginnings the server panics is C11."
},
"C198": {
"status": "proved",
"note": "A body without a told length that is cut off by an orderly end is a beginning, and nothing shows that (C30 says the same of a Content-Length, if the client does not compare it). The model of the client meets GotFrom by C191."
},
"C20": {
"status": "proved",
"note": "Every parsed message; framing rule stated over the header entries, shown to decide the framing; bad lengths rejected."
},
"C21": {
"status": "proved",
"note": "Every method and target."
},
"C22": {
"status": "proved",
"note": "Every sequence of writes and flushes, every lawful transport writer (partial writes, repeated interruptions), every receiver transport. Assumes each written buffer is shorter than 2^64 bytes (usize on 64-bit targets)."
},
"C23": {
"status": "proved",
"note": "An empty write returns Ok(0) and leaves the state of the outgoing body equal."
},
"C24": {
"status": "proved",
"note": "Every size spelling accepted by from_str_radix; interruptions allowed wherever the I/O layer repeats them (size lines, CR LF after data)."
},
"C25": {
"status": "proved",
"note": "Every cut point strictly before the end of the last size line. C25_exact: on a stream that does not fail, every byte of data that arrived is delivered, and the error is named by where the cut is."
},
"C26": {
"status": "partial",
"note": "False of the code: C26_retry_false (any failure inside chunk data drops the state, later reads report end of body). Proved: interruptions outside chunk data are survived; at most one error is ever reported."
},
"C27": {
"status": "partial",
"note": "False of the code in every state: C27_empty_read_false. Proved: bodies with no data left, and the two other kinds of body, are not disturbed."
},
"C28": {
"status": "partial",
"note": "False of the code: C28_tail_false (any two bytes are accepted). Proved: missing bytes are reported."
},
"C29": {
"status": "proved",
"note": "Every N, stream (with failures), and schedule of positive reads."
},
"C30": {
"status": "partial",
"note": "False of the code: C30_truncated_false. Proved: content_length after the end tells the caller."
},
"C31": {
"status": "proved",
"note": "Every placement of failures; Limited and ReadTilClose bodies."
},
"C32": {
"status": "proved",
"note": "Every body and every parsed message."
},
"C33": {
"status": "proved",
"note": "Every lawful reader and writer, every fragmentation, partial write and failure position; also that copy does succeed when nothing fails, and where each of its errors comes from (C33_copy_cause)."
},
"C34": {
"status": "proved",
"note": "read_exact: exact characterisation (iff). write_all: safety for every writer, success for every transport that makes progress."
},
"C35": {
"status": "proved",
"note": "Slice, Cursor, Empty, Take, BufReader (std buffering and pass-through), failures of the inner stream included."
},
"C36": {
"status": "proved",
"note": "Every sequence of write/flush calls going on after failures, every partial-write and failure schedule."
},
"C37": {
"status": "proved",
"note": "Every built request carries the three standard headers with the stated values, and added headers replace or join them as stated."
},
"C38": {
"status": "partial",
"note": "False as stated: the query is dropped from the request target (C38_query_false). C38_target_partial proves that the target sent is always the path alone, and that this is the target it should be exactly if the URL has no query."
},
"C39": {
"status": "partial",
"note": "False as stated: Host never carries a non-default port (C39_port_false). C39_host_partial: Host is the URL's host, and that is what RFC 2616 asks for exactly if the port is absent or the default one."
},
"C40": {
"status": "proved",
"note": "Exactly the http and https URLs with a host are accepted; ports default to 80 and 443."
},
"C41": {
"status": "proved",
"note": "Writing to a request whose method has no body fails and leaves the transport as it was."
},
"C42": {
"status": "partial",
"note": "False as stated: a caller that ignores a failed write and calls finish sends a malformed body and does read the response (C42_failed_write_false, with and without std). C42_after_failures: what is on the wire when the response is read, for all calls and all failures (of each failed write a beginning of its chunk, then the end of the body). C42_on_wire_partial: when all calls succeed, exactly the request is on the wire before anything is read; C42_nothing_read: nothing is read before finish whatever fails; C42_reliable: over transports that do not fail, sending succeeds."
},
"C43": {
"status": "proved",
"note": "C43_put, C43_get (what is sent, which body is returned), C43_only (one connection to the resolved address)."
},
"C44": {
"status": "proved",
"note": "C44_one_connection over every history; C44_failure and C44_reuse for single uses."
},
"C45": {
"status": "proved",
"note": "C45_sequential over every list of requests and answers, every transport that keeps the contracts and every peer."
},
"C46": {
"status": "partial",
"note": "False: without std the CR LF that ends a chunked body is never read, so the next request always fails and every later one obtains the response to the one before (C46_off_by_one_false); with std it depends on segmentation (C46_std_*). All cases characterised (C46_next); holds when nothing is left on the connection (C46_chunked_partial), and with std for every sequence of chunked and sized responses if large reads do not stop before or within that CR LF (C46_together_partial)."
},
"C47": {
"status": "partial",
"note": "False: what is left of a dropped body is taken for the next response (C47_unread_false), and can be a forged one (C47_forged_false). All cases characterised (C47_next); holds when nothing is left on the connection."
},
"C48": {
"status": "partial",
"note": "False of the code: once the peer has closed a pooled connection, no later request to that address is answered and no connection is attempted again (C48_never_replaced, any history; C48_replaced_false). Proved: an address without pooled connection gets exactly one attempt."
},
"C49": {
"status": "partial",
"note": "With the feature ssl: proved over all histories (https gets a TLS session for the URL's host, http a bare connection; keys shared iff address, host and security agree). Without ssl, https URLs go over bare TCP (C49_no_ssl, C49_plain_https_false)."
},
"C50": {
"status": "proved",
"note": "serve_one with a logging handler: the log gets exactly the pair (method, target) of the parsed request, and nothing if parsing errs or panics or a PUT/POST is not delimited (C50_calls); the log is invisible (C50_log_unseen); same in terms of the bytes on the connection under every fragmentation (C50_wire); put/post get the request's body and the result is what the method returned or what its error converts to (C50_handed)."
},
"C51": {
"status": "partial",
"note": "False for requests that panic the parser (C11): nothing is written to them (C51_unanswered_false). Proved on transports that do not fail while writing, with the exact bytes written: a request for which deserialize returns an error gets 500 and the error's text (C51_unparsable_partial), PUT/POST without length gets 411, a handler error gets the response it converts to, of whatever version. The text of errors (derived Debug) is a parameter here, C119 says what it is; handlers that use the body only by reading."
},
"C52": {
"status": "proved",
"note": "For every connection (any read faults, any write schedule), every handler and every response whose version can arise (C52_versions): serve_one writes head + whole body on success, a prefix of that on failure, nothing if the parser or handler panics (C52_written); a handler that uses the body only by reading writes nothing itself (C52_handler_quiet); success whenever transport and body do not fail (C52_succeeds). serve_one does not flush the connection (example)."
},
"C53": {
"status": "proved",
"note": "Every default method answers 405 with its text and leaves body and handler alone; the default of post says 'PUT not allowed'."
},
"C54": {
"status": "partial",
"note": "False: a request with a header value that begins with a byte above 0x7F panics serve_one and ends serve_forever, whatever came before and waits behind (C54_stopped_false). For all connections and handlers: served in order, results depend on each other only through the handler's state, only the last result can be a panic and the loop ends early only with one (C54_until_panic); serving panics exactly when the request panics the parser or the handler does (C54_panics_iff). Special cases: C54_in_order_partial, C54_independent_partial (a handler without memory), C54_no_panic_partial."
},
"C55": {
"status": "proved",
"note": "Client and server composed over two arbitrary fragmenting byte streams; handler gets method, path and body, client gets status, headers and body."
},
"C56": {
"status": "partial",
"note": "False as stated: C56_head_false (the body announced by the headers is read from the connection). C56_head_iff: on a connection that is closed after some bytes, without the chunked coding, the body is empty exactly if nothing follows the head or a length of zero is announced. C56_chunked: with the chunked coding announced and nothing following, the first read of the body fails. The partial theorems cover a server that closes, and a declared length of zero on any connection."
},
"C57": {
"status": "proved",
"note": "For every behaviour of the TLS library and transport, a returned stream's handshake is over; over transports that end, both calls return; an end during the handshake gives an error. The client may return with its last handshake message unwritten (C57_client_written_false); the server never does."
},
"C58": {
"status": "proved",
"note": "Every insertion history."
},
"C59": {
"status": "proved",
"note": "Every sequence of calls on a parser over ASCII text gives what the specification says; the specification is deterministic; nothing is lost or read twice; no panic; parse_remaining works once."
},
"C60": {
"status": "partial",
"note": "False: the acceptor reads once, so a ClientHello in two pieces is refused (C60_pieces_false). In one piece it is accepted."
},
"C61": {
"status": "partial",
"note": "False: assert_ne! panics when a write accepts no bytes (C61_no_panic_false). Otherwise no panic. C61_panics_iff: for a library that does not panic itself, the handshakes that panic are exactly those that come to a write of which the transport accepts nothing."
},
"C62": {
"status": "partial",
"note": "False as stated (C62_forward_false): a header block whose first line begins with a blank gives a header whose name begins with a blank; if it does not sort first, it is folded into the header before it when parsed again, and is lost. C62_request_partial, C62_response_partial: for every message that parses and in which no header but the first has such a name; any version, any status, any transports. C62_request_iff, C62_response_iff: that condition is exact; a message in which a later header has such a name never comes back the same. Assumes CaseKeeps of str::to_lowercase (text stays text, no colon or CR LF appears), which asciiCase_keeps shows for the ASCII mapping."
},
"C63": {
"status": "proved",
"note": "For every stream without interrupted calls, in any fragmentation; ReadAlike compares what reading the bodies gives (bytes, then end on both or an error on both; error values differ by build). With interruptions the builds differ (C63_interrupted_false)."
},
"C64": {
"status": "partial",
"note": "False as stated (C64_framing_false, five witnesses: different lengths, a signed length, an unknown coding, chunked in other case, neither header). C64_framing_partial: plainly spelled headers that do not contradict each other are framed as the RFC says, whatever else is in the head. C64_rfc_unique: the specification is deterministic. C64_framing_iff: the exact condition on the header values under which the message is framed, or rejected, as the RFC says, for every version and head."
},
"C65": {
"status": "partial",
"note": "False as stated (C65_framing_false, five witnesses: 204 and 100 without headers, 304 with a length, different lengths, an unknown coding beside a length). C65_framing_partial: for every status that allows a body, plainly spelled headers that do not contradict each other, or none, are framed as the RFC says, whatever else is in the head. C65_rfc_unique: the specification is deterministic. C65_framing_iff: the exact condition on the header values under which the message is framed, or rejected, as the RFC says, for every version and head."
},
"C66": {
"status": "proved",
"note": "For every file system (symbolic links included; no permissions or other processes; the disk does not fail), any transports. C66_stored, C66_fetched; C66_put_get composes them over two connections."
},
"C67": {
"status": "partial",
"note": "False as stated (C67_inside_false): GET /../secret and PUT /../secret leave the root; C67_link_false: so do symbolic links, without .. in the target; C67_listing_false: the listing server shows what is outside. C67_inside_partial: as long as there are no symbolic links below the root and no target has a beginning with more .. than names, or the links are relative and neither they nor the targets have a .., any requests on any number of connections are answered alike, byte by byte, in any two file systems that agree below the root, and nothing outside changes. C67_listing_partial: the same for the listing server, for any order in which a directory is read that depends on nothing outside the directory."
},
"C68": {
"status": "partial",
"note": "False as stated (C68_failed_false): an upload that is cut off is answered with 500 and the old content is lost. C68_written_partial: after any request at most one file has changed, the one a PUT named, its content is a beginning of the body received, and all of it if the handler reports success."
},
"C69": {
"status": "proved",
"note": "Soundness and completeness for requests and responses against a grammar stated on bytes (C69_request_sound, C69_request_complete, C69_response_sound, C69_response_complete). The upper-casing of a method name and lower-casing of header names outside ASCII are the library's (CaseMap)."
},
"C70": {
"status": "partial",
"note": "False of the code (C70_reuse_false); C70_first_partial says exactly what happens: the first request is answered, no later request is, and only one connection is opened."
},
"C71": {
"status": "partial",
"note": "False of the code (C71_skipped_false). C71_first_partial: the response returned is the first on the connection, so the final one if no interim one is sent; C71_taken, C71_get_fails and C71_put_fails say what happens otherwise, for all interim statuses and final responses."
},
"C72": {
"status": "partial",
"note": "False of the code (C72_request_false for every method, C72_response_false). The partial theorems are exact: a peer reads what was written iff the headers say chunked (or a length that fits by coincidence); a bodiless request has an empty body iff the headers do not say chunked; a client reads the handler's body iff the headers neither say chunked nor a shorter length."
},
"C73": {
"status": "partial",
"note": "False of the code (C73_fields_false). C73_fields_partial says for every conforming block exactly when it is accepted and with which values; C73_usual is the full claim for the usual spelling."
},
"C74": {
"status": "partial",
"note": "False of the code (C74_chunked_false). The partial theorems are exact: decoded iff no extension; the trailer part is what is left."
},
"C75": {
"status": "partial",
"note": "False of the code (C75_request_false). C75_request_partial says for every conforming head exactly when it is accepted and what is read."
},
"C76": {
"status": "partial",
"note": "False of the code (C76_response_false): the reason phrase may hold obs-text. C76_response_partial says for every conforming head exactly when it is accepted and what is read."
},
"C77": {
"status": "proved",
"note": "C77_request: any HttpRequest of version 1.1; C77_client: requests built from a URL, including Host and the framing RFC 7230 assigns."
},
"C78": {
"status": "partial",
"note": "False of the code (C78_response_false). C78_response_partial: for every handler and response the sent status line conforms iff the status is a named one; then the whole message is described."
},
"C79": {
"status": "partial",
"note": "False of the code (C79_bodiless_false). C79_bodiless_partial: nothing is sent after the head iff the response's body is empty, for every method and status."
},
"C80": {
"status": "proved",
"note": "OpenFails is stated on the network's operations and the URL only; C80_reported: every such failure is what each entry point returns, with the world after the failed step; C80_only: the converse, for client::get and client::put."
},
"C81": {
"status": "proved",
"note": "Assumes the entries can be read (no other process removes them). The page is compared with pageText, items with Items: each entry once, in some order."
},
"C82": {
"status": "partial",
"note": "False as stated (C82_links_false; C82_symlink_false: even if every link followed was one of a listing). C82_links_partial: with a slash at the end of the target, every link of an entry with an unreserved name leads to that entry, or to where it leads if it is a symbolic link. C82_elsewhere_partial: without, it leads to what has this name in the directory above, or to an error."
},
"C83": {
"status": "partial",
"note": "False as stated (C83_markup_false): PUT /<h1> and then GET /. C83_markup_partial is an equivalence."
},
"C84": {
"status": "partial",
"note": "False as stated (C84_absent_false). C84_absent_partial: the answer is always 500 with the text of the error (not a directory if there is a file on the way, too many links if there are more than 40 on it, else not found), and nothing changes."
},
"C85": {
"status": "partial",
"note": "False as stated (C85_cut_same: a complete shorter response sends the same bytes; C85_cut_false: a directory and an empty file in the documentation's server). C85_cut_partial: exactly the head and what the body gave are sent, and serve_one returns the body's error, so that the server's owner can tell."
},
"C86": {
"status": "proved",
"note": "Handlers: OnlyReads (they do not write to the connection) and ByContent (they do not look at the sizes of reads); both file servers are such (fileHandler_byContent, listingHandler_byContent). Reliable connections: those that take all that is written."
},
"C87": {
"status": "partial",
"note": "False as stated (C87_head_false, C87_response_false: for every n a message with a longer header value is accepted). C87_head_partial, C87_response_partial: target and all header values together, with four bytes more for each header, are no longer than the bytes taken from the connection."
},
"C88": {
"status": "partial",
"note": "False as stated (C88_host_false). C88_host_partial: two requests that differ only in Host headers get the same answer."
},
"C89": {
"status": "partial",
"note": "False as stated (C89_left_false: a response with an empty chunked body and content-length 5). C89_left_partial: all other bodies. C89_chunked: what it is for chunked bodies. C89_request, C89_response: at first it is the number of the header."
},
"C90": {
"status": "partial",
"note": "False as stated (C90_target_false: a target with a CR LF adds a header). C90_target_partial: the request arrives as built exactly if the target is not empty and has no space, tab or CR LF. The builders of the client take the target from a url::Url, which encodes these."
},
"C91": {
"status": "proved",
"note": "C91_request, C91_response: the error is exactly what broke the head. C91_sources: where errors come from."
},
"C92": {
"status": "partial",
"note": "False as stated (C92_false, with std: a timeout in a size line has kind Other). C92_plain_partial, C92_data_partial, C92_tail_partial: everywhere else it holds. C92_size_partial: what happens in a size line. C92_sources: all errors that a reader can see."
},
"C93": {
"status": "partial",
"note": "False as stated (C93_false, with std: a GET over a reset connection). C93_upload_partial: requests with a body. C93_no_body_partial: all other requests, the kind Other excepted. C93_kind_lost: with std every request without a body and with a head below 8 KiB loses the error. C93_finish, C93_response: finish and responses."
},
"C94": {
"status": "proved",
"note": "Assumes of each library that it checks what it is told to check (OpenSslChecks, NativeTlsChecks, RustlsChecks); C94_openssl_iff and C94_native_iff say exactly what they are told. C94_https: over all histories of the pooled client."
},
"C95": {
"status": "partial",
"note": "False as stated (C95_false, openssl with a chain of two). C95_rustls_partial and C95_native_partial: all certificates; C95_openssl_partial: exactly the first, so the claim holds iff there is one certificate."
},
"C96": {
"status": "partial",
"note": "False as stated (C96_false). C96_rustls_iff: with rustls it panics exactly if the key's text is readable and has no key; C96_partial: with openssl and native-tls never (unless the library does)."
},
"C97": {
"status": "partial",
"note": "False as stated (C97_false). C97_ipv4_partial: IPv4. C97_ipv6: every request to a URL with an IPv6 address fails with AddrNotAvailable, given that the lookup refuses bracketed text (NumericLookup, the documented behaviour of std)."
},
"C98": {
"status": "partial",
"note": "False as stated with std (C98_false). C98_serve_partial: the only exceptions are errors of the head with std, of kind Other; C98_kind_lost: then always; C98_accept: accept's error, the handler is not asked."
},
"C99": {
"status": "proved",
"note": "C99_values: Scheme::Other(\"http\"), which no text is read as, is not read back; every scheme read from text is."
}
}