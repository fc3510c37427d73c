{
 "claims": [
  {
   "property": "C01",
   "status": "proved",
   "theorems": [
    "Fcgi.Props.C01_roundtrip16",
    "Fcgi.Props.C01_roundtrip32",
    "Fcgi.Props.C01_roundtrip64",
    "Fcgi.Props.C01_network_order",
    "Fcgi.Props.C01_read_value"
   ],
   "note": ""
  },
  {
   "property": "C02",
   "status": "proved",
   "theorems": [
    "Fcgi.Props.C02_safe",
    "Fcgi.Props.C02_exact",
    "Fcgi.Props.C02_incomplete"
   ],
   "note": ""
  },
  {
   "property": "C03",
   "status": "proved",
   "theorems": [
    "Fcgi.Props.C03_roundtrip",
    "Fcgi.Props.C03_terminates"
   ],
   "note": ""
  },
  {
   "property": "C04",
   "status": "partial",
   "theorems": [
    "Fcgi.Props.C04_pairs_partial",
    "Fcgi.Props.C04_violated"
   ],
   "note": "False of the code: C04_violated proves that every pair cut by a record boundary is lost. C04_pairs_partial proves the property for divisions that cut only between pairs."
  },
  {
   "property": "C05",
   "status": "proved",
   "theorems": [
    "Fcgi.Props.C05_record_size"
   ],
   "note": ""
  },
  {
   "property": "C06",
   "status": "partial",
   "theorems": [
    "Fcgi.Props.C06_partial",
    "Fcgi.Props.C06_values",
    "Fcgi.Props.C06_violated",
    "Fcgi.Props.C06_desync"
   ],
   "note": "Full property is false of the code (C06_violated, C06_desync): contentLength omits the two length bytes. C06_partial proves what holds."
  },
  {
   "property": "C07",
   "status": "partial",
   "theorems": [
    "Fcgi.Props.C07_partial",
    "Fcgi.Props.C07_violated",
    "Fcgi.Props.C07_answers"
   ],
   "note": "Full property is false of the code (C07_violated): the GET_VALUES loop never advances. C07_partial covers records without a complete pair and unknown types."
  },
  {
   "property": "C08",
   "status": "proved",
   "theorems": [
    "Fcgi.Props.C08_lexicographic",
    "Fcgi.Props.C08_strict_total",
    "Fcgi.Props.C08_grouped",
    "Fcgi.Props.C08_bad_last",
    "Fcgi.Props.C08_socket_search"
   ],
   "note": ""
  },
  {
   "property": "C09",
   "status": "proved",
   "theorems": [
    "Fcgi.Props.C09_memory_safe",
    "Fcgi.Props.C09_msgs_eq",
    "Fcgi.Props.C09_fragmentation"
   ],
   "note": ""
  },
  {
   "property": "C10",
   "status": "proved",
   "theorems": [
    "Fcgi.Props.C10_isolation"
   ],
   "note": ""
  },
  {
   "property": "C11",
   "status": "partial",
   "theorems": [
    "Fcgi.Props.C11_gone_once",
    "Fcgi.Props.C11_read_error",
    "Fcgi.Props.C11_hangup_partial",
    "Fcgi.Props.C11_violated_empty_record",
    "Fcgi.Props.C11_violated_write_error"
   ],
   "note": "Full property is false of the code: C11_violated_empty_record (a complete record with an empty body read after a hang-up is lost) and C11_violated_write_error (a failed write closes the connection without any 'gone' message, for every continuation). Read errors (C11_read_error), at-most-once (C11_gone_once) and orderly hang-ups (C11_hangup_partial) are proved."
  },
  {
   "property": "C12",
   "status": "proved",
   "theorems": [
    "Fcgi.Props.C12_flatMap_single",
    "Fcgi.Props.C12_expected_plain",
    "Fcgi.Props.C12_content"
   ],
   "note": ""
  },
  {
   "property": "C13",
   "status": "proved",
   "theorems": [
    "Fcgi.Props.C13_records"
   ],
   "note": "The 'does not ask for the connection to be closed' clause concerns the send callback and is part of C38/C39 (request model)."
  },
  {
   "property": "C14",
   "status": "proved",
   "theorems": [
    "Fcgi.Props.C14_encode_html",
    "Fcgi.Props.C14_content",
    "Fcgi.Props.C14_html",
    "Fcgi.Props.C14_neutral",
    "Fcgi.Props.C14_unique"
   ],
   "note": ""
  },
  {
   "property": "C15",
   "status": "proved",
   "theorems": [
    "Fcgi.Props.C15_encode_url",
    "Fcgi.Props.C15_url"
   ],
   "note": ""
  },
  {
   "property": "C16",
   "status": "partial",
   "theorems": [
    "Fcgi.Props.C16_run",
    "Fcgi.Props.C16_append",
    "Fcgi.Props.C16_init",
    "Fcgi.Props.C16_content",
    "Fcgi.Props.C16_terminates_partial",
    "Fcgi.Props.C16_violated"
   ],
   "note": "Full property is false of the code: C16_violated shows an encoded insertion that never terminates when an escape does not fit in the current chunk. C16_content holds for every terminating sequence; C16_terminates_partial proves termination without encodings. Narrow chunk buffers only."
  },
  {
   "property": "C17",
   "status": "proved",
   "theorems": [
    "Fcgi.Props.C17_output_prefix",
    "Fcgi.Props.C17_flushed",
    "Fcgi.Props.C17_nothing_lost"
   ],
   "note": ""
  },
  {
   "property": "C18",
   "status": "proved",
   "theorems": [
    "Fcgi.Props.C18_no_tearing"
   ],
   "note": ""
  },
  {
   "property": "C19",
   "status": "proved",
   "theorems": [
    "Fcgi.Props.C19_close_after_last_byte",
    "Fcgi.Props.C19_kill_honoured",
    "Fcgi.Props.C19_orderly"
   ],
   "note": ""
  },
  {
   "property": "C20",
   "status": "proved",
   "theorems": [
    "Fcgi.Props.C20_length",
    "Fcgi.Props.C20_decodes",
    "Fcgi.Props.C20_onto"
   ],
   "note": ""
  },
  {
   "property": "C21",
   "status": "proved",
   "theorems": [
    "Fcgi.Props.C21_form",
    "Fcgi.Props.C21_cookie",
    "Fcgi.Props.C21_encodable",
    "Fcgi.Props.C21_roundtrip",
    "Fcgi.Props.C21_post"
   ],
   "note": ""
  },
  {
   "property": "C22",
   "status": "partial",
   "theorems": [
    "Fcgi.Props.C22_total",
    "Fcgi.Props.C22_partial",
    "Fcgi.Props.C22_exact",
    "Fcgi.Props.C22_violated"
   ],
   "note": "False of the code for fields without '=': C22_violated proves, for every such field and every neighbour, that it swallows the next field's name. C22_exact says for every text what is decoded (the text is cut at the next '=' and then at the next '&', and in exactly one way). C22_partial: any list of fields that all contain '='. C22_total: terminates on every input."
  },
  {
   "property": "C23",
   "status": "partial",
   "theorems": [
    "Fcgi.Props.C23_exact_partial",
    "Fcgi.Props.C23_stops",
    "Fcgi.Props.C23_safe_partial",
    "Fcgi.Props.C23_violated_oob",
    "Fcgi.Props.C23_violated_overflow"
   ],
   "note": "The parser reads its argument before checking the range, so a value ending at the end of its object is read one byte past (C23_violated_oob, for every number); INT_MIN and larger numbers overflow (C23_violated_overflow). With a byte following, the result is exact (C23_exact_partial)."
  },
  {
   "property": "C24",
   "status": "proved",
   "theorems": [
    "Fcgi.Props.C24_succeeds",
    "Fcgi.Props.C24_text",
    "Fcgi.Props.C24_addresses",
    "Fcgi.Props.C24_parsed",
    "Fcgi.Props.C24_numbers",
    "Fcgi.Props.C24_negative",
    "Fcgi.Props.C24_lists",
    "Fcgi.Props.C24_others"
   ],
   "note": "Proved for every list of parameters, with the addresses as Address::assign (Model/Address) reads them; C24_succeeds says when filling is free of undefined behaviour. The date of HTTP_IF_MODIFIED_SINCE is kept as text (std::get_time is not modelled)."
  },
  {
   "property": "C25",
   "status": "partial",
   "theorems": [
    "Fcgi.Props.C25_segments_partial",
    "Fcgi.Props.C25_encodable",
    "Fcgi.Props.C25_total_partial",
    "Fcgi.Props.C25_violated_oob"
   ],
   "note": "Reads one byte past every value that ends at the end of its object (C25_violated_oob); otherwise exact and total (C25_segments_partial, C25_total_partial)."
  },
  {
   "property": "C26",
   "status": "proved",
   "theorems": [
    "Fcgi.Props.C26_tags",
    "Fcgi.Props.C26_total"
   ],
   "note": ""
  },
  {
   "property": "C27",
   "status": "proved",
   "theorems": [
    "Fcgi.Props.C27_exact",
    "Fcgi.Props.C27_labels",
    "Fcgi.Props.C27_written",
    "Fcgi.Props.C27_error"
   ],
   "note": ""
  },
  {
   "property": "C28",
   "status": "proved",
   "theorems": [
    "Fcgi.Props.C28_body"
   ],
   "note": ""
  },
  {
   "property": "C29",
   "status": "proved",
   "theorems": [
    "Fcgi.Props.C29_roundtrip"
   ],
   "note": "Boundary not made of dashes only and without quote, colon, CR, LF; headers as browsers send them (Part.header)."
  },
  {
   "property": "C30",
   "status": "proved",
   "theorems": [
    "Fcgi.Props.C30_total",
    "Fcgi.Props.C30_postBuffer"
   ],
   "note": ""
  },
  {
   "property": "C31",
   "status": "proved",
   "theorems": [
    "Fcgi.Props.C31_encode",
    "Fcgi.Props.C31_roundtrip",
    "Fcgi.Props.C31_length",
    "Fcgi.Props.C31_characters"
   ],
   "note": ""
  },
  {
   "property": "C32",
   "status": "partial",
   "theorems": [
    "Fcgi.Props.C32_safe_partial",
    "Fcgi.Props.C32_digits",
    "Fcgi.Props.C32_foreign",
    "Fcgi.Props.C32_violated_write",
    "Fcgi.Props.C32_violated_accept"
   ],
   "note": "C32_safe_partial: safe with one byte more room than documented; C32_digits and C32_foreign give the accepted/rejected verdict for texts without '='. C32_violated_write: with the documented room a single '=' after whole groups writes one byte out of bounds; C32_violated_accept: whatever follows a '=' is accepted."
  },
  {
   "property": "C33",
   "status": "proved",
   "theorems": [
    "Fcgi.Props.C33_roundtrip",
    "Fcgi.Props.C33_distinct"
   ],
   "note": ""
  },
  {
   "property": "C34",
   "status": "proved",
   "theorems": [
    "Fcgi.Props.C34_faithful",
    "Fcgi.Props.C34_generates"
   ],
   "note": ""
  },
  {
   "property": "C35",
   "status": "partial",
   "theorems": [
    "Fcgi.Props.C35_partial",
    "Fcgi.Props.C35_violated"
   ],
   "note": "Holds for languages without NUL bytes (C35_partial); a language holding a NUL makes std::equal read past the locale's name (C35_violated). A language matches a locale if it is a prefix of its name and has at most five characters, as in the code."
  },
  {
   "property": "C36",
   "status": "partial",
   "theorems": [
    "Fcgi.Props.C36_once",
    "Fcgi.Props.C36_distinct",
    "Fcgi.Props.C36_resume",
    "Fcgi.Props.C36_response",
    "Fcgi.Props.C36_total_partial",
    "Fcgi.Props.C36_violated"
   ],
   "note": "C36_once, C36_distinct, C36_resume and C36_response cover the whole claim for every run that does not reach undefined behaviour; C36_total_partial shows absence of undefined behaviour for inputs whose PARAMS records hold whole pairs with decimal numbers, addresses and padding. Otherwise the parser over-reads (see C23, C25). Exceptions from user handlers are not modelled. C36_violated: a numeric parameter at the end of an unpadded PARAMS record is read past its end."
  },
  {
   "property": "C37",
   "status": "proved",
   "theorems": [
    "Fcgi.Props.C37_announced",
    "Fcgi.Props.C37_excess",
    "Fcgi.Props.C37_bounded"
   ],
   "note": ""
  },
  {
   "property": "C38",
   "status": "proved",
   "theorems": [
    "Fcgi.Props.C38_abort",
    "Fcgi.Props.C38_out_of_order",
    "Fcgi.Props.C38_role",
    "Fcgi.Props.C38_role_always"
   ],
   "note": ""
  },
  {
   "property": "C39",
   "status": "proved",
   "theorems": [
    "Fcgi.Props.C39_complete"
   ],
   "note": ""
  },
  {
   "property": "C40",
   "status": "proved",
   "theorems": [
    "Fcgi.Props.C40_pending",
    "Fcgi.Props.C40_handled"
   ],
   "note": "C40_pending: at all moments a waiting message has a task, a thread or a push on its way; C40_handled: at rest, all accepted messages of every served request have been handled to the end (unless terminate() was called or no thread runs)."
  },
  {
   "property": "C41",
   "status": "proved",
   "theorems": [
    "Fcgi.Props.C41_exclusive",
    "Fcgi.Props.C41_order",
    "Fcgi.Props.C41_alone",
    "Fcgi.Props.C41_request"
   ],
   "note": "C41_exclusive/order hold for every interleaving; C41_alone and C41_request reduce the concurrent request to the sequential handler of Model/Request.lean."
  },
  {
   "property": "C42",
   "status": "partial",
   "theorems": [
    "Fcgi.Props.C42_drains",
    "Fcgi.Props.C42_terminate",
    "Fcgi.Props.C42_ends_partial",
    "Fcgi.Props.C42_violated"
   ],
   "note": "False of the code: C42_violated, losing the last connection after stop() does not wake the waiting threads (push() erases without notifying), join() hangs. C42_drains (threads end only when allowed) and C42_terminate are proved in full; C42_ends_partial proves termination after stop() if no connection is lost."
  },
  {
   "property": "C43",
   "status": "proved",
   "theorems": [
    "Fcgi.Props.C43_only",
    "Fcgi.Props.C43_all",
    "Fcgi.Props.C43_spared"
   ],
   "note": "C43_only, C43_all, C43_spared for every table and interleaving."
  },
  {
   "property": "C44",
   "status": "proved",
   "theorems": [
    "Fcgi.Props.C44_routed",
    "Fcgi.Props.C44_answered"
   ],
   "note": "WellRouted trace plus C44_answered: each push ends in exactly one of accepted/created/dropped according to what serves the id."
  },
  {
   "property": "C45",
   "status": "proved",
   "theorems": [
    "Fcgi.Props.C45_wakeful",
    "Fcgi.Props.C45_getup",
    "Fcgi.Props.C45_answered",
    "Fcgi.Props.C45_channel"
   ],
   "note": "Every interleaving of the transceiver thread, any number of senders and the controlling thread: C45_wakeful (never asleep over a wake-up), C45_getup, C45_answered (at rest every wake-up has been answered), C45_channel (at most one byte in the channel; the thread never blocks reading it)."
  },
  {
   "property": "C46",
   "status": "proved",
   "theorems": [
    "Fcgi.Props.C46_life",
    "Fcgi.Props.C46_valid",
    "Fcgi.Props.C46_invalid",
    "Fcgi.Props.C46_copies",
    "Fcgi.Props.C46_close",
    "Fcgi.Props.C46_read",
    "Fcgi.Props.C46_write",
    "Fcgi.Props.C46_hangup",
    "Fcgi.Props.C46_finish"
   ],
   "note": "Every sequence of operations on handles by the group's thread; descriptors may be reused by the operating system."
  },
  {
   "property": "C47",
   "status": "proved",
   "theorems": [
    "Fcgi.Props.C47_roundTrip",
    "Fcgi.Props.C47_text",
    "Fcgi.Props.C47_injective"
   ],
   "note": "For streams that show no base prefix and group no digits (see C72); the printed form is proved to be an RFC 4291 text of the address, injective, and parsed back by assign; by operator>> in C74. char instantiation (wchar_t is the same template)."
  },
  {
   "property": "C48",
   "status": "partial",
   "theorems": [
    "Fcgi.Props.C48_text",
    "Fcgi.Props.C48_any",
    "Fcgi.Props.C48_v4",
    "Fcgi.Props.C48_groups",
    "Fcgi.Props.C48_safe",
    "Fcgi.Props.C48_foreign_partial",
    "Fcgi.Props.C48_compat_violated",
    "Fcgi.Props.C48_junk_violated",
    "Fcgi.Props.C48_colon_violated",
    "Fcgi.Props.C48_stale_violated",
    "Fcgi.Props.C48_overread_violated",
    "Fcgi.Props.C48_overflow_violated"
   ],
   "note": "C48_text: every RFC 4291 text but ::a.b.c.d. C48_safe: in bounds if something other than colons follows the text. False in part: C48_compat_violated (::1.2.3.4), C48_junk_violated (text after the eighth group or after a dotted number is ignored), C48_colon_violated, C48_stale_violated (uninitialised bytes), C48_overread_violated (nothing after the text), C48_overflow_violated (atoi). C48_foreign_partial: foreign characters before the eighth group and the first dot give the zero address."
  },
  {
   "property": "C49",
   "status": "proved",
   "theorems": [
    "Fcgi.Props.C49_less",
    "Fcgi.Props.C49_order",
    "Fcgi.Props.C49_equal",
    "Fcgi.Props.C49_mask",
    "Fcgi.Props.C49_bool"
   ],
   "note": "Order is that of the 128 bit big-endian number; operator&= on the two 64 bit words of a little-endian machine."
  },
  {
   "property": "C50",
   "status": "partial",
   "theorems": [
    "Fcgi.Props.C50_wire",
    "Fcgi.Props.C50_read",
    "Fcgi.Props.C50_roundTrip",
    "Fcgi.Props.C50_wide",
    "Fcgi.Props.C50_wides",
    "Fcgi.Props.C50_not_text",
    "Fcgi.Props.C50_unencodable_violated",
    "Fcgi.Props.C50_overflow_violated",
    "Fcgi.Props.C50_type",
    "Fcgi.Props.C50_element_types"
   ],
   "note": "Wire form, reading and round trip of every value within the limits (Sendable) for every type, with PostgreSQL's formats stated in Spec/Sql.lean; C50_wide, C50_wides: the wide texts with the UTF-8 conversion of libstdc++ itself (Model/Utf8), for every text of Unicode scalar values; C50_not_text: others are sent as empty text. False as stated: a WTEXT that cannot be encoded is sent as empty text, a TIMESTAMPTZ near the minimum overflows."
  },
  {
   "property": "C51",
   "status": "partial",
   "theorems": [
    "Fcgi.Props.C51_nums",
    "Fcgi.Props.C51_floats",
    "Fcgi.Props.C51_assign",
    "Fcgi.Props.C51_assign_floats",
    "Fcgi.Props.C51_texts",
    "Fcgi.Props.C51_element",
    "Fcgi.Props.C51_roundTrip",
    "Fcgi.Props.C51_huge_violated",
    "Fcgi.Props.C51_resize_violated"
   ],
   "note": "All vectors whose wire form is below 2^32 bytes (2^31 to be read back). False for larger ones (heap overflow) and for arrays made by resize() and filled by [] (element lengths never set)."
  },
  {
   "property": "C52",
   "status": "partial",
   "theorems": [
    "Fcgi.Props.C52_any_partial",
    "Fcgi.Props.C52_fixed_partial",
    "Fcgi.Props.C52_null_violated",
    "Fcgi.Props.C52_array_violated",
    "Fcgi.Props.C52_negative_violated",
    "Fcgi.Props.C52_nullElement_violated",
    "Fcgi.Props.C52_arrays_partial",
    "Fcgi.Props.C52_nulls_violated"
   ],
   "note": "Proved: BOOL, TEXT, WTEXT, BYTEA, INET of any content are read inside the buffer; fixed size fields of the right size too; and every array a conforming server can send (any dimensions, nulls, element sizes of the type) is read inside the buffer, as empty when it has nulls announced or not one dimension. False: a NULL of any other type is read past its one byte, and an array whose words are wrong is not checked against the size of the field."
  },
  {
   "property": "C53",
   "status": "partial",
   "theorems": [
    "Fcgi.Props.C53_once",
    "Fcgi.Props.C53_one",
    "Fcgi.Props.C53_order",
    "Fcgi.Props.C53_sentOnce",
    "Fcgi.Props.C53_kept_partial",
    "Fcgi.Props.C53_stop_partial",
    "Fcgi.Props.C53_stop_violated",
    "Fcgi.Props.C53_race_violated",
    "Fcgi.Props.C53_refused_violated",
    "Fcgi.Props.C53_again_violated"
   ],
   "note": "Proved for every schedule: at most one callback per query, only after it was sent; a query is never in two places; first dispatches are in order of acceptance; without a loss each is sent once; until stop()/terminate() nothing accepted is lost, and after stop() everything accepted before it was at least sent. False: stop() drops queries in progress, a query racing with stop() is dropped, a query refused by a connection is lost, order of re-runs after two losses is reversed."
  },
  {
   "property": "C54",
   "status": "partial",
   "theorems": [
    "Fcgi.Props.C54_mailed_partial",
    "Fcgi.Props.C54_removed_partial",
    "Fcgi.Props.C54_empty_violated"
   ],
   "note": "Proved for all emails with a recipient, every server behaviour and every schedule; an email without recipient is dropped (C54_empty_violated)."
  },
  {
   "property": "C55",
   "status": "partial",
   "theorems": [
    "Fcgi.Props.C55_data_partial",
    "Fcgi.Props.C55_violated",
    "Fcgi.Props.C55_dot_violated"
   ],
   "note": "Exact characterisation (iff) of the bodies that arrive unchanged: no line begins with a dot; fails for the others (no dot-stuffing)."
  },
  {
   "property": "C56",
   "status": "partial",
   "theorems": [
    "Fcgi.Props.C56_post",
    "Fcgi.Props.C56_get",
    "Fcgi.Props.C56_violated"
   ],
   "note": "For any data, any operations and any rooms below 4 GiB; room of a multiple of 4 GiB hands over nothing."
  },
  {
   "property": "C57",
   "status": "partial",
   "theorems": [
    "Fcgi.Props.C57_response_partial",
    "Fcgi.Props.C57_violated"
   ],
   "note": "For every fragmentation if no length header follows body data; fails otherwise (trailers, reuse without reset())."
  },
  {
   "property": "C58",
   "status": "partial",
   "theorems": [
    "Fcgi.Props.C58_bounded",
    "Fcgi.Props.C58_order",
    "Fcgi.Props.C58_complete",
    "Fcgi.Props.C58_called",
    "Fcgi.Props.C58_calls_partial",
    "Fcgi.Props.C58_dropped",
    "Fcgi.Props.C58_once",
    "Fcgi.Props.C58_lost_violated",
    "Fcgi.Props.C58_never_violated"
   ],
   "note": "Bound, order, at most once, function called next after completion: proved for every interleaving. Violated: a callback set between the call and the destruction of the old one is lost; a transfer complete at once is never called back (C100). m_waking/m_callback are taken as sequentially consistent (they are racy in the code); libcurl is any library that completes transfers in socket_action."
  },
  {
   "property": "C59",
   "status": "partial",
   "theorems": [
    "Fcgi.Props.C59_stream_violated",
    "Fcgi.Props.C59_violated"
   ],
   "note": "False of the code (C59_violated): put() bypasses the encoding at every buffer offset; so do inserted characters, the padding of fields and one-character sources (C59_stream_violated)."
  },
  {
   "property": "C60",
   "status": "partial",
   "theorems": [
    "Fcgi.Props.C60_utf8_length",
    "Fcgi.Props.C60_wide",
    "Fcgi.Props.C60_violated"
   ],
   "note": "C60_wide proves the property for all Unicode scalar text; the clause about unencodable characters is false (C60_violated): everything buffered together with one is dropped. The converter is a parameter."
  },
  {
   "property": "C61",
   "status": "partial",
   "theorems": [
    "Fcgi.Props.C61_safe",
    "Fcgi.Props.C61_determined_partial",
    "Fcgi.Props.C61_violated"
   ],
   "note": "C61_safe: memory safe for every text; C61_determined_partial: 20 digits determine the identifier; C61_violated: the empty text and text starting with a foreign character leave the identifier as uninitialised memory."
  },
  {
   "property": "C62",
   "status": "partial",
   "theorems": [
    "Fcgi.Props.C62_get_partial",
    "Fcgi.Props.C62_violated"
   ],
   "note": "Holds after every get (C62_get_partial); C62_violated: generate does not renew the expiration, so after an idle time longer than twice the keep-alive a new session's cookie has already expired."
  },
  {
   "property": "C63",
   "status": "partial",
   "theorems": [
    "Fcgi.Props.C63_fresh_partial",
    "Fcgi.Props.C63_violated"
   ],
   "note": "False of the code (C63_violated): a BEGIN_REQUEST arriving between END_REQUEST and the erase is queued to the old request and lost. C63_fresh_partial: ids not in use."
  },
  {
   "property": "C64",
   "status": "partial",
   "theorems": [
    "Fcgi.Props.C64_safe_partial",
    "Fcgi.Props.C64_sweep_violated",
    "Fcgi.Props.C64_short_violated"
   ],
   "note": "False of the code: C64_sweep_violated (lost connection between the two unlocks destroys a locked mutex / use after free), C64_short_violated (BEGIN_REQUEST body read past the record). C64_safe_partial: safe in all runs with whole records and no lost connection."
  },
  {
   "property": "C65",
   "status": "partial",
   "theorems": [
    "Fcgi.Props.C65_partial",
    "Fcgi.Props.C65_violated"
   ],
   "note": "False of the code (C65_violated): valid() is tested before the request is released. C65_partial: true if no thread is in that window."
  },
  {
   "property": "C66",
   "status": "proved",
   "theorems": [
    "Fcgi.Props.C66_no_deadlock",
    "Fcgi.Props.C66_settles",
    "Fcgi.Props.C66_reaches"
   ],
   "note": "The user's handler and the management handler are taken to return (see C05/C07 for the GET_VALUES loop); signal handlers calling stop() while the mutex is held are not modelled."
  },
  {
   "property": "C67",
   "status": "proved",
   "theorems": [
    "Fcgi.Props.C67_order",
    "Fcgi.Props.C67_sent"
   ],
   "note": "At the level of record names; the bytes and partial writes are C13-C15."
  },
  {
   "property": "C68",
   "status": "proved",
   "theorems": [
    "Fcgi.Props.C68_only",
    "Fcgi.Props.C68_ends"
   ],
   "note": "Both directions for every interleaving."
  },
  {
   "property": "C69",
   "status": "partial",
   "theorems": [
    "Fcgi.Props.C69_refuses",
    "Fcgi.Props.C69_partial",
    "Fcgi.Props.C69_violated",
    "Fcgi.Props.C69_unjoined_violated"
   ],
   "note": "C69_refuses is the second half in full. False of the code in the first half: C69_violated (stop() then start() racing with the refresh in poll() leaves the listeners out of the poll set for ever), C69_unjoined_violated (start() after stop() without join() does not make a thread). C69_partial: true if no accept() races with the refresh."
  },
  {
   "property": "C70",
   "status": "partial",
   "theorems": [
    "Fcgi.Props.C70_partial",
    "Fcgi.Props.C70_violated"
   ],
   "note": "False of the code after a failed poll.add (C70_violated: the dead entry kills the next connection with the same descriptor); C70_partial for runs without such a failure."
  },
  {
   "property": "C71",
   "status": "partial",
   "theorems": [
    "Fcgi.Props.C71_partial",
    "Fcgi.Props.C71_listen_violated",
    "Fcgi.Props.C71_connect_violated"
   ],
   "note": "False of the code: C71_listen_violated (never returns if the first two addresses fail), C71_connect_violated (a third address is never tried). C71_partial: true if one of the first two works, or there is only one."
  },
  {
   "property": "C72",
   "status": "partial",
   "theorems": [
    "Fcgi.Props.C72_fits_partial",
    "Fcgi.Props.C72_showbase_violated",
    "Fcgi.Props.C72_grouping_violated"
   ],
   "note": "False with std::showbase (C72_showbase_violated) or a locale that groups digits by three (C72_grouping_violated): the 40 character buffer on the stack overflows. C72_fits_partial: at most 39 characters otherwise."
  },
  {
   "property": "C73",
   "status": "proved",
   "theorems": [
    "Fcgi.Props.C73_width"
   ],
   "note": "For streams that show no base prefix and group no digits; the stream is taken to accept all characters."
  },
  {
   "property": "C74",
   "status": "partial",
   "theorems": [
    "Fcgi.Props.C74_text",
    "Fcgi.Props.C74_roundTrip",
    "Fcgi.Props.C74_safe",
    "Fcgi.Props.C74_dotted",
    "Fcgi.Props.C74_junk_violated"
   ],
   "note": "C74_text, C74_roundTrip, C74_safe; false in one respect: C74_junk_violated (unset bytes of the local buffer become part of the address). Texts longer than 39 characters are not read (limit in the code)."
  },
  {
   "property": "C75",
   "status": "proved",
   "theorems": [
    "Fcgi.Props.C75_zero",
    "Fcgi.Props.C75_column"
   ],
   "note": "verify() of Results<Types...> against an independent table of PostgreSQL's types."
  },
  {
   "property": "C76",
   "status": "partial",
   "theorems": [
    "Fcgi.Props.C76_sent_partial",
    "Fcgi.Props.C76_bytea_violated"
   ],
   "note": "All values but the empty BYTEA, which is sent as NULL."
  },
  {
   "property": "C77",
   "status": "proved",
   "theorems": [
    "Fcgi.Props.C77_noIdle",
    "Fcgi.Props.C77_wakes"
   ],
   "note": "Proved for every schedule (with at least one connection configured)."
  },
  {
   "property": "C78",
   "status": "partial",
   "theorems": [
    "Fcgi.Props.C78_moves_partial",
    "Fcgi.Props.C78_deadlock_violated"
   ],
   "note": "Proved while the wake-up socket has room. False beyond: with cap bytes of room, cap+1 calls of queue() while the thread is between two polls block both for ever (proved for every cap)."
  },
  {
   "property": "C79",
   "status": "partial",
   "theorems": [
    "Fcgi.Props.C79_ub_partial",
    "Fcgi.Props.C79_exit_partial",
    "Fcgi.Props.C79_iterator_violated",
    "Fcgi.Props.C79_notice_violated"
   ],
   "note": "Proved: no undefined behaviour without a refused query; exit only on the three kinds of events named. False: a refused query leaves a dangling iterator, a server notice on an idle connection ends the process."
  },
  {
   "property": "C80",
   "status": "partial",
   "theorems": [
    "Fcgi.Props.C80_result_partial",
    "Fcgi.Props.C80_stale_violated"
   ],
   "note": "Proved: the result is of an execution of that query, and of the only one if no connection was lost. False after a loss between result and completion: the first execution's result is kept."
  },
  {
   "property": "C81",
   "status": "proved",
   "theorems": [
    "Fcgi.Props.C81_asked",
    "Fcgi.Props.C81_terminate",
    "Fcgi.Props.C81_stop",
    "Fcgi.Props.C81_ends"
   ],
   "note": "Proved for every schedule."
  },
  {
   "property": "C82",
   "status": "partial",
   "theorems": [
    "Fcgi.Props.C82_rest_violated"
   ],
   "note": "False: PQflush is called once at dispatch and otherwise only on input, the socket is never polled for writing. The theorem gives the reachable state and proves that no other step of the thread changes it."
  },
  {
   "property": "C83",
   "status": "proved",
   "theorems": [
    "Fcgi.Props.C83_drained",
    "Fcgi.Props.C83_each"
   ],
   "note": "For emails with a recipient."
  },
  {
   "property": "C84",
   "status": "partial",
   "theorems": [
    "Fcgi.Props.C84_all_partial",
    "Fcgi.Props.C84_greeting_violated",
    "Fcgi.Props.C84_lines_violated",
    "Fcgi.Props.C84_last_violated"
   ],
   "note": "Proved for any list of emails and any one-line replies; fails for multi-line replies and for 8BITMIME in the last line. Not covered: calls of other threads during the sessions."
  },
  {
   "property": "C85",
   "status": "partial",
   "theorems": [
    "Fcgi.Props.C85_asked",
    "Fcgi.Props.C85_terminate_partial",
    "Fcgi.Props.C85_stop_partial",
    "Fcgi.Props.C85_blocked_violated",
    "Fcgi.Props.C85_endless_violated"
   ],
   "note": "Ends only if asked; no wake-up lost; fails while reading, because the socket is blocking."
  },
  {
   "property": "C86",
   "status": "partial",
   "theorems": [
    "Fcgi.Props.C86_when_partial",
    "Fcgi.Props.C86_start_violated",
    "Fcgi.Props.C86_close_violated"
   ],
   "note": "Exactly three situations lead to undefined behaviour; two of them shown reachable."
  },
  {
   "property": "C87",
   "status": "partial",
   "theorems": [
    "Fcgi.Props.C87_line_partial",
    "Fcgi.Props.C87_said_partial",
    "Fcgi.Props.C87_ending_violated",
    "Fcgi.Props.C87_injection_violated"
   ],
   "note": "No CRLF at all; one line each if addresses have no line break."
  },
  {
   "property": "C88",
   "status": "partial",
   "theorems": [
    "Fcgi.Props.C88_violated",
    "Fcgi.Props.C88_connected_partial"
   ],
   "note": "Fails: an idle, unconnected mailer spins; holds while connected."
  },
  {
   "property": "C89",
   "status": "partial",
   "theorems": [
    "Fcgi.Props.C89_memory_partial",
    "Fcgi.Props.C89_violated"
   ],
   "note": "Safe unless a length header follows body data; then an over-read is reachable by a server."
  },
  {
   "property": "C90",
   "status": "partial",
   "theorems": [
    "Fcgi.Props.C90_headers_partial",
    "Fcgi.Props.C90_unique",
    "Fcgi.Props.C90_violated"
   ],
   "note": "Exact content of headers(): the first line of each name; repeated headers are lost."
  },
  {
   "property": "C91",
   "status": "partial",
   "theorems": [
    "Fcgi.Props.C91_header_partial",
    "Fcgi.Props.C91_violated",
    "Fcgi.Props.C91_exact"
   ],
   "note": "C91_exact says exactly which length headers std::stoi accepts and what is reserved. Holds except for length headers that std::stoi rejects; 2 GiB responses throw through C code."
  },
  {
   "property": "C92",
   "status": "partial",
   "theorems": [
    "Fcgi.Props.C92_reset_partial",
    "Fcgi.Props.C92_violated",
    "Fcgi.Props.C92_encoding_violated"
   ],
   "note": "Fails: request headers and the encoding stay."
  },
  {
   "property": "C93",
   "status": "partial",
   "theorems": [
    "Fcgi.Props.C93_reuse_partial",
    "Fcgi.Props.C93_violated"
   ],
   "note": "Fails for every completely read POST body whose length is no multiple of 4096; holds otherwise for unfinished ones and after reset()."
  },
  {
   "property": "C94",
   "status": "partial",
   "theorems": [
    "Fcgi.Props.C94_wide_partial",
    "Fcgi.Props.C94_violated",
    "Fcgi.Props.C94_drop_violated"
   ],
   "note": "For pieces that are whole characters; fails for split characters; malformed pieces are dropped silently."
  },
  {
   "property": "C95",
   "status": "partial",
   "theorems": [
    "Fcgi.Props.C95_table",
    "Fcgi.Props.C95_run",
    "Fcgi.Props.C95_content_partial",
    "Fcgi.Props.C95_post_partial",
    "Fcgi.Props.C95_violated",
    "Fcgi.Props.C95_twice_violated"
   ],
   "note": "For all Unicode text, operations and encodings; one unencodable character drops the buffer or duplicates data."
  },
  {
   "property": "C96",
   "status": "proved",
   "theorems": [
    "Fcgi.Props.C96_headers",
    "Fcgi.Props.C96_again"
   ],
   "note": "Of the narrow object; the conversion of wide headers is not modelled."
  },
  {
   "property": "C97",
   "status": "partial",
   "theorems": [
    "Fcgi.Props.C97_drained_partial",
    "Fcgi.Props.C97_called",
    "Fcgi.Props.C97_violated"
   ],
   "note": "When the thread ends all is done and called back (proved); that it ends is violated by a transfer complete at once (C100)."
  },
  {
   "property": "C98",
   "status": "proved",
   "theorems": [
    "Fcgi.Props.C98_asked",
    "Fcgi.Props.C98_asleep",
    "Fcgi.Props.C98_terminate"
   ],
   "note": "Sequentially consistent m_waking; bounded number of steps of the thread after terminate(), and it is always enabled once the callers have finished their wake()."
  },
  {
   "property": "C99",
   "status": "partial",
   "theorems": [
    "Fcgi.Props.C99_safe_partial",
    "Fcgi.Props.C99_one",
    "Fcgi.Props.C99_violated"
   ],
   "note": "Partial: only if no request is queued again before it is complete, or with one transfer at a time; violated otherwise."
  },
  {
   "property": "C100",
   "status": "partial",
   "theorems": [
    "Fcgi.Props.C100_noted_partial",
    "Fcgi.Props.C100_violated"
   ],
   "note": "Partial: after each look at the sockets all complete transfers are noted; violated for those complete in the first socket_action."
  },
  {
   "property": "C101",
   "status": "partial",
   "theorems": [
    "Fcgi.Props.C101_sockets_partial",
    "Fcgi.Props.C101_violated"
   ],
   "note": "Which sockets: proved; for what: always input only, violated when the library waits to send."
  },
  {
   "property": "C102",
   "status": "proved",
   "theorems": [
    "Fcgi.Props.C102_framed",
    "Fcgi.Props.C102_answer",
    "Fcgi.Props.C102_complete",
    "Fcgi.Props.C102_closed"
   ],
   "note": "End to end over the composed model of transceiver, manager and requests: safety at every moment (C102_answer), completeness whenever idle (C102_complete), exact bytes and closing (C102_closed). For classes derived from Request<char> and from Request<wchar_t> (`OfLibrary`; `alone_narrow` and `alone_wide` give the request on its own). The callback messages a request is given are some of those that callbacks sent to it, in order, each at most once. They are a prefix of those sent, and all of those sent if the request has not ended."
  },
  {
   "property": "C103",
   "status": "partial",
   "theorems": [
    "Fcgi.Props.C103_violated",
    "Fcgi.Props.C103_destroys_violated"
   ],
   "note": "Violated: id 65535 is the internal marker of a lost connection; no request with it is served and its records destroy the other requests of the connection. For all other ids: C102. For requests of both character types."
  },
  {
   "property": "C104",
   "status": "partial",
   "theorems": [
    "Fcgi.Props.C104_violated",
    "Fcgi.Props.C104_partial"
   ],
   "note": "Violated: transmit() stops at the first record the kernel does not take completely. Partial: if every peer reads, everything queued is dealt with in finitely many steps."
  },
  {
   "property": "C105",
   "status": "proved",
   "theorems": [
    "Fcgi.Props.C105_cause",
    "Fcgi.Props.C105_lost"
   ],
   "note": "Cause of every removal in every run; cause of every loss report. For requests of both character types."
  },
  {
   "property": "C106",
   "status": "partial",
   "theorems": [
    "Fcgi.Props.C106_violated",
    "Fcgi.Props.C106_own_violated",
    "Fcgi.Props.C106_cross_violated",
    "Fcgi.Props.C106_partial",
    "Fcgi.Props.C106_as_calls_partial"
   ],
   "note": "Violated: a signal delivered to the thread that holds m_tasksMutex, or to one that holds m_requestsMutex while the holder of m_tasksMutex waits for that, is never acted on and blocks the server forever. Partial: delivered to a thread that holds neither it is acted on, exactly as a call of stop() or terminate()."
  },
  {
   "property": "C107",
   "status": "proved",
   "theorems": [
    "Fcgi.Props.C107_sound",
    "Fcgi.Props.C107_served"
   ],
   "note": "Whole-server theorems: soundness at all moments, completeness at rest (unless the server was stopped). A GET_VALUES record with a pair prevents rest (C07). For requests of both character types."
  },
  {
   "property": "C108",
   "status": "partial",
   "theorems": [
    "Fcgi.Props.C108_partial",
    "Fcgi.Props.C108_texts",
    "Fcgi.Props.C108_cut_violated",
    "Fcgi.Props.C108_violated"
   ],
   "note": "C108_partial: for any input the wide environment is the narrow one decoded, text by text (simulation, including undefined behaviour); in the containers malformed texts are empty; the parameters kept under their own names only if all those names are UTF-8. C108_texts: the members and the parameters under their own names for any bytes: a malformed value leaves a member as it was, a last character cut short is left out. Violated otherwise: C108_cut_violated (a name cut inside a character replaces another parameter), C108_violated (all malformed names share the empty name)."
  },
  {
   "property": "C109",
   "status": "partial",
   "theorems": [
    "Fcgi.Props.C109_partial",
    "Fcgi.Props.C109_violated"
   ],
   "note": "The variant for systems without epoll. C109_partial: everything but fairness. C109_violated: descriptors registered after one that is always busy are never told of (the vector is always searched from its beginning)."
  },
  {
   "property": "C110",
   "status": "partial",
   "theorems": [
    "Fcgi.Props.C110_exit_partial",
    "Fcgi.Props.C110_violated",
    "Fcgi.Props.C110_listeners",
    "Fcgi.Props.C110_woken",
    "Fcgi.Props.C110_connections",
    "Fcgi.Props.C110_socket",
    "Fcgi.Props.C110_nothing"
   ],
   "note": "C110_exit_partial: the list of reasons for the program to end, which includes a failed accept(). C110_violated: any failure of accept() (the client has gone, no descriptors left, another process sharing the listening socket was faster) ends the program with all its connections. The rest of the property (connections accepted, sockets handed out, empty returns) is proved in full."
  },
  {
   "property": "C111",
   "status": "proved",
   "theorems": [
    "Fcgi.Props.C111_ends",
    "Fcgi.Props.C111_reaches",
    "Fcgi.Props.C111_reaches_calm",
    "Fcgi.Props.C111_answered",
    "Fcgi.Props.C111_closed",
    "Fcgi.Props.C111_no_loop",
    "Fcgi.Props.C111_rests"
   ],
   "note": "Termination of the server's own steps (C111_ends), a state of rest is reached (C111_reaches, C111_rests), and there everything is answered (C111_answered, C111_closed). Assumes that reads and writes of the kernel make progress or fail, that user code returns, and that threads get to run. For requests of both character types. The callback messages a request is given are some of those that callbacks sent to it, in order, each at most once. They are a prefix of those sent, and all of those sent if the request has not ended."
  },
  {
   "property": "C112",
   "status": "partial",
   "theorems": [
    "Fcgi.Props.C112_partial",
    "Fcgi.Props.C112_complete",
    "Fcgi.Props.C112_progress",
    "Fcgi.Props.C112_fail",
    "Fcgi.Props.C112_violated"
   ],
   "note": "C112_partial, C112_complete, C112_progress, C112_fail: everything but the last clause, for texts the stream's locale can encode. C112_violated: one character it cannot encode (a peer can send one, src/address.cpp logs it) sets the stream's failure for good and nothing is logged any more."
  },
  {
   "property": "C113",
   "status": "partial",
   "theorems": [
    "Fcgi.Props.C113_partial",
    "Fcgi.Props.C113_violated"
   ],
   "note": "C113_partial: poll() of a socket group does the same as long as no FAIL_LOG is reached. C113_violated: suppressed, FAIL_LOG neither logs nor exits; a listener that cannot be polled is silently given up, a second manager replaces the first. Other places of FAIL_LOG (Curler, SQL connection) are not modelled with suppress."
  },
  {
   "property": "C114",
   "status": "partial",
   "theorems": [
    "Fcgi.Props.C114_narrow",
    "Fcgi.Props.C114_wide_partial",
    "Fcgi.Props.C114_violated"
   ],
   "note": "C114_narrow: in full for narrow emails. C114_wide_partial: for wide emails whose text and addresses are Unicode text. C114_violated: a wide address that cannot be converted is ignored with a warning, and the email goes to the address set before."
  },
  {
   "property": "C115",
   "status": "partial",
   "theorems": [
    "Fcgi.Props.C115_unused_partial",
    "Fcgi.Props.C115_violated",
    "Fcgi.Props.C115_wide"
   ],
   "note": "C115_unused_partial: an email that has not been queued can be destroyed. C115_wide: a wide one always. C115_violated: a narrow email that has been queued cannot be destroyed (nor queued) without undefined behaviour: data() moves the chunks away and emptyBuffer() takes back() of the empty list."
  },
  {
   "property": "C116",
   "status": "partial",
   "theorems": [
    "Fcgi.Props.C116_partial",
    "Fcgi.Props.C116_threads",
    "Fcgi.Props.C116_running",
    "Fcgi.Props.C116_join",
    "Fcgi.Props.C116_destroy_violated",
    "Fcgi.Props.C116_shrink_violated",
    "Fcgi.Props.C116_ignored_violated",
    "Fcgi.Props.C116_restart_violated"
   ],
   "note": "C116_partial, C116_threads, C116_running, C116_join: what holds. C116_destroy_violated: destroying a manager that was started and not joined ends the program, even if its threads have ended. C116_shrink_violated: so does resizeThreads() between stop() and join(). C116_ignored_violated: after terminate() and join(), resizeThreads() does nothing. C116_restart_violated: start() after stop() or terminate(), when the threads have ended but join() was not called, starts nothing."
  },
  {
   "property": "C117",
   "status": "partial",
   "theorems": [
    "Fcgi.Props.C117_listens",
    "Fcgi.Props.C117_frame",
    "Fcgi.Props.C117_failed_partial",
    "Fcgi.Props.C117_stays_partial",
    "Fcgi.Props.C117_removed",
    "Fcgi.Props.C117_none_left",
    "Fcgi.Props.C117_again",
    "Fcgi.Props.C117_demo",
    "Fcgi.Props.C117_leftover_violated",
    "Fcgi.Props.C117_long_violated",
    "Fcgi.Props.C117_owner_violated",
    "Fcgi.Props.C117_ignored_violated",
    "Fcgi.Props.C117_stolen_violated"
   ],
   "note": "C117_listens, C117_frame, C117_removed, C117_none_left, C117_again: what holds for every history; C117_stays_partial: for names no other group has listened on; C117_failed_partial: no descriptor is left by a failure, and no file unless the owner, the permissions or the listening is refused. C117_leftover_violated: then the file stays for ever. C117_long_violated: names of 108 bytes or more are cut short: true is returned for a file that is not there, and the next start fails. C117_owner_violated: an unknown user or group is a null pointer. C117_ignored_violated: an owner without a group is ignored. C117_stolen_violated: the destructor of an old server removes the file of its successor."
  },
  {
   "property": "C118",
   "status": "partial",
   "theorems": [
    "Fcgi.Props.C118_vector_partial",
    "Fcgi.Props.C118_frame",
    "Fcgi.Props.C118_pointers",
    "Fcgi.Props.C118_self_violated"
   ],
   "note": "C118_vector_partial: refinement of a vector for every sequence of calls without a block moved to itself; C118_frame, C118_pointers. C118_self_violated: a block moved to itself loses its content."
  },
  {
   "property": "C119",
   "status": "partial",
   "theorems": [
    "Fcgi.Props.C119_date_partial",
    "Fcgi.Props.C119_request_partial",
    "Fcgi.Props.C119_absent",
    "Fcgi.Props.C119_order",
    "Fcgi.Props.C119_zone_violated",
    "Fcgi.Props.C119_first_violated",
    "Fcgi.Props.C119_invalid_violated",
    "Fcgi.Props.C119_forms_violated"
   ],
   "note": "C119_date_partial, C119_request_partial: for every date, in zones whose standard time has not changed; C119_order, C119_absent. C119_zone_violated: elsewhere the time is wrong by the change. C119_first_violated: if `timezone` is read before the first mktime. C119_invalid_violated: text that is no date is not ignored, and can seem to be in the far future (the answer is then 304 for ever). C119_forms_violated: the two obsolete forms are misread. std::get_time and mktime are models of the library."
  },
  {
   "property": "C120",
   "status": "partial",
   "theorems": [
    "Fcgi.Props.C120_once",
    "Fcgi.Props.C120_resume",
    "Fcgi.Props.C120_response",
    "Fcgi.Props.C120_abort",
    "Fcgi.Props.C120_out_of_order",
    "Fcgi.Props.C120_role",
    "Fcgi.Props.C120_role_always",
    "Fcgi.Props.C120_announced",
    "Fcgi.Props.C120_excess",
    "Fcgi.Props.C120_bounded",
    "Fcgi.Props.C120_complete_partial",
    "Fcgi.Props.C120_total_partial",
    "Fcgi.Props.C120_violated"
   ],
   "note": "C120_once, C120_resume, C120_response, C120_abort, C120_out_of_order, C120_role, C120_role_always, C120_announced, C120_excess, C120_bounded: for all messages and handlers. C120_complete_partial: all text written is sent, if all of it is text (Unicode scalar values; with no encoding selected, C59 and C16 for the others). C120_total_partial: for PARAMS records of whole pairs with padding (C04, C25). C120_violated: one character that is not Unicode, and flush(), silence the stream for the rest of the request, which ends as a success."
  },
  {
   "property": "C121",
   "status": "partial",
   "theorems": [
    "Fcgi.Props.C121_lockstep_partial",
    "Fcgi.Props.C121_bytes_partial",
    "Fcgi.Props.C121_violated"
   ],
   "note": "C121_lockstep_partial, C121_bytes_partial: for all messages, as long as the content type (and what the applications look at) is UTF-8 text; with encodings, which escape the wide text and its UTF-8 form alike. C121_violated: text that is not UTF-8 is passed on by the narrow and dropped by the wide version."
  },
  {
   "property": "C122",
   "status": "partial",
   "theorems": [
    "Fcgi.Props.C122_text",
    "Fcgi.Props.C122_canonical_partial",
    "Fcgi.Props.C122_first_violated",
    "Fcgi.Props.C122_single_violated"
   ],
   "note": "C122_text: the exact text, for all addresses. C122_canonical_partial: it is the canonical one, and only it, if there is no zero group or a single longest run of two groups or more. C122_first_violated: of equal runs the last is replaced. C122_single_violated: a single zero group is replaced."
  },
  {
   "property": "C123",
   "status": "partial",
   "theorems": [
    "Fcgi.Props.C123_thread",
    "Fcgi.Props.C123_start",
    "Fcgi.Props.C123_ends",
    "Fcgi.Props.C123_join",
    "Fcgi.Props.C123_safe_partial",
    "Fcgi.Props.C123_destroy_violated",
    "Fcgi.Props.C123_restart_violated",
    "Fcgi.Props.C123_early_violated"
   ],
   "note": "C123_thread, C123_start, C123_ends, C123_join: for any order of calls, what there is of a thread, what start() and join() do and when the thread may end. C123_safe_partial: no abort and no undefined behaviour in the order the headers describe. Violated otherwise: C123_destroy_violated (destroyed after stop() but without join()), C123_restart_violated (start() before join() of a thread asked to end starts nothing), C123_early_violated (stop(), terminate() or queue() before start() or init() use variables without a value)."
  },
  {
   "property": "C124",
   "status": "partial",
   "theorems": [
    "Fcgi.Props.C124_partial",
    "Fcgi.Props.C124_wide_partial",
    "Fcgi.Props.C124_violated"
   ],
   "note": "C124_partial (narrow) and C124_wide_partial (wide, Unicode text) prove that everything said is sent exactly once, and before END_REQUEST if the stream is good at the end or the library's flush() ignores the state. False otherwise (C124_violated): with GCC 12 and later a failed stream (for example after out << file.rdbuf() of an empty file) is flushed only by the destructor, after END_REQUEST."
  },
  {
   "property": "C125",
   "status": "partial",
   "theorems": [
    "Fcgi.Props.C125_unambiguous",
    "Fcgi.Props.C125_finished_partial",
    "Fcgi.Props.C125_out_of_order_partial",
    "Fcgi.Props.C125_role_partial",
    "Fcgi.Props.C125_announced_partial",
    "Fcgi.Props.C125_excess_partial",
    "Fcgi.Props.C125_unknown_content_partial",
    "Fcgi.Props.C125_violated",
    "Fcgi.Props.C125_wide_finished_partial",
    "Fcgi.Props.C125_wide_out_of_order_partial",
    "Fcgi.Props.C125_wide_role_partial",
    "Fcgi.Props.C125_wide_announced_partial",
    "Fcgi.Props.C125_wide_excess_partial",
    "Fcgi.Props.C125_wide_unknown_content_partial"
   ],
   "note": "Proved for every request refused before response() was first called (C125_finished_partial for any messages; the other theorems give the status for each reason; C125_wide_* for wchar_t). False afterwards (C125_violated): a record that arrives while the application's answer is under way appends a whole second response, header fields and all, to the body of the first."
  },
  {
   "property": "C126",
   "status": "proved",
   "theorems": [
    "Fcgi.Props.C126_prompt",
    "Fcgi.Props.C126_wide_prompt",
    "Fcgi.Props.C126_held",
    "Fcgi.Props.C126_wide_held"
   ],
   "note": "C126_prompt and C126_held for char, C126_wide_prompt and C126_wide_held for wchar_t and Unicode text."
  },
  {
   "property": "C127",
   "status": "partial",
   "theorems": [
    "Fcgi.Props.C127_taken",
    "Fcgi.Props.C127_handled_partial",
    "Fcgi.Props.C127_violated"
   ],
   "note": "C127_taken: every call's message makes a request, is put in the queue of the request serving the id, or is dropped, exactly once.  C127_handled_partial: if the id was only given to one request, which is still there, that request handles them.  False in general (C127_violated): a callback is bound to the id, not to the request, so an answer that comes after the request has ended is handled by the next request of the same id."
  },
  {
   "property": "C128",
   "status": "partial",
   "theorems": [
    "Fcgi.Props.C128_no_deadlock_partial",
    "Fcgi.Props.C128_settles",
    "Fcgi.Props.C128_violated"
   ],
   "note": "C128_no_deadlock_partial and C128_settles for calls from response() and other threads.  From the destructor of a request, which the handler runs while it holds the table of requests (manager.cpp 297), the call never returns (C128_violated, for all continuations)."
  },
  {
   "property": "C129",
   "status": "proved",
   "theorems": [
    "Fcgi.Props.C129_answer",
    "Fcgi.Props.C129_complete",
    "Fcgi.Props.C129_kept",
    "Fcgi.Props.C129_turns",
    "Fcgi.Props.C129_ongoing"
   ],
   "note": "C129_answer (safety, at every moment), C129_complete (all of it at rest), C129_kept (never closed), C129_turns (a peer that takes turns meets the condition). Requests of both character types. The race of a quicker peer is C63_violated. C129_ongoing: while the connection is open, the records of a request come only after all those of the requests before it. The callback messages a request is given are some of those that callbacks sent to it, in order, each at most once."
  },
  {
   "property": "C130",
   "status": "partial",
   "theorems": [
    "Fcgi.Props.C130_same",
    "Fcgi.Props.C130_ongoing",
    "Fcgi.Props.C130_bytes_violated"
   ],
   "note": "C130_same (at rest), C130_ongoing (prefix at any moment), both for requests of narrow and wide characters; the meaning of records only: C130_bytes_violated exhibits two runs whose bytes differ by uninitialised memory."
  },
  {
   "property": "C131",
   "status": "partial",
   "theorems": [
    "Fcgi.Props.C131_bounded",
    "Fcgi.Props.C131_released_partial",
    "Fcgi.Props.C131_between",
    "Fcgi.Props.C131_released_violated"
   ],
   "note": "C131_bounded, C131_between, C131_released_partial (no failed write); C131_released_violated: after a failed write the partial record is never released."
  },
  {
   "property": "C132",
   "status": "partial",
   "theorems": [
    "Fcgi.Props.C132_bounds",
    "Fcgi.Props.C132_stops",
    "Fcgi.Props.C132_sign",
    "Fcgi.Props.C132_integer",
    "Fcgi.Props.C132_exact",
    "Fcgi.Props.C132_value_partial",
    "Fcgi.Props.C132_points_violated",
    "Fcgi.Props.C132_long_violated"
   ],
   "note": "C132_bounds, C132_stops, C132_sign, C132_integer, C132_exact; C132_value_partial bounds the error for up to 38 and 300 digits. C132_points_violated: 1.2.3 is read as 1.5; C132_long_violated: 0.1 followed by 330 zeros is read as more than a million. `double` and `float` are IEEE 754 with rounding to nearest."
  },
  {
   "property": "C133",
   "status": "partial",
   "theorems": [
    "Fcgi.Props.C133_partial",
    "Fcgi.Props.C133_string_violated",
    "Fcgi.Props.C133_dump_violated"
   ],
   "note": "C133_partial: characters one at a time and strings that fit; C133_string_violated: a longer string loses 8192 characters and the stream is good; C133_dump_violated: dump() ignores that the text before it could not be encoded."
  },
  {
   "property": "C134",
   "status": "partial",
   "theorems": [
    "Fcgi.Props.C134_partial",
    "Fcgi.Props.C134_generate_violated"
   ],
   "note": "C134_partial: after every get; C134_generate_violated: sessions that are only generated are all kept for ever, whatever the times."
  },
  {
   "property": "C135",
   "status": "partial",
   "theorems": [
    "Fcgi.Props.C135_partial",
    "Fcgi.Props.C135_send_violated",
    "Fcgi.Props.C135_valid_violated",
    "Fcgi.Props.C135_time_violated",
    "Fcgi.Props.C135_expiration_violated",
    "Fcgi.Props.C135_curl_violated",
    "Fcgi.Props.C135_queue_violated",
    "Fcgi.Props.C135_connected_violated",
    "Fcgi.Props.C135_requests_violated",
    "Fcgi.Props.C135_resize_violated"
   ],
   "note": "C135_partial: all objects except those of Raced; each of the nine C135_*_violated theorems gives a schedule with a race on one of these. Model/Races reduces the functions to lock operations and accesses to shared objects and leaves conditions open; a request being made is not yet shared."
  },
  {
   "property": "C136",
   "status": "partial",
   "theorems": [
    "Fcgi.Props.C136_partial",
    "Fcgi.Props.C136_progress_partial",
    "Fcgi.Props.C136_constructor_violated"
   ],
   "note": "C136_partial, C136_progress_partial: everything but constructors and destructors of requests that call into the manager; C136_constructor_violated: a constructor that calls stop() and a handler thread wait for each other. About locks only: a thread waiting for a condition variable or in join is waiting for an event, not a lock (C04, C33 and others)."
  },
  {
   "property": "C137",
   "status": "partial",
   "theorems": [
    "Fcgi.Props.C137_partial",
    "Fcgi.Props.C137_peer",
    "Fcgi.Props.C137_url_violated",
    "Fcgi.Props.C137_zero_violated",
    "Fcgi.Props.C137_verify_violated"
   ],
   "note": "C137_partial: texts without 0, Unicode, a libcurl that takes 1 for CURLOPT_SSL_VERIFYHOST; C137_peer: the certificate, always. Violated: C137_url_violated, C137_zero_violated, C137_verify_violated; header fields survive reset() (C92_violated)."
  },
  {
   "property": "C138",
   "status": "proved",
   "theorems": [
    "Fcgi.Props.C138_ends",
    "Fcgi.Props.C138_called"
   ],
   "note": "C138_ends: no infinite sequence of steps with a willing database; C138_called: when no step is possible, every accepted query has been called back. Signals in the poll (spurious wake-ups) are excluded, as is a database that never answers."
  },
  {
   "property": "C139",
   "status": "partial",
   "theorems": [
    "Fcgi.Props.C139_partial",
    "Fcgi.Props.C139_violated",
    "Fcgi.Props.C139_silent_violated"
   ],
   "note": "C139_partial: streams with web stream buffers; C139_violated: in every other case a write through a null pointer; C139_silent_violated: the error is never logged."
  },
  {
   "property": "C140",
   "status": "partial",
   "theorems": [
    "Fcgi.Props.C140_status",
    "Fcgi.Props.C140_rows",
    "Fcgi.Props.C140_null",
    "Fcgi.Props.C140_none",
    "Fcgi.Props.C140_affected_partial",
    "Fcgi.Props.C140_affected_violated",
    "Fcgi.Props.C140_strings"
   ],
   "note": "Proved but for affectedRows() from 2^31 on (C140_affected_violated). The statuses of pipelines and chunked rows, which need modes this library never sets, are reported as fatal errors."
  },
  {
   "property": "C141",
   "status": "partial",
   "theorems": [
    "Fcgi.Props.C141_partial",
    "Fcgi.Props.C141_quiet_partial",
    "Fcgi.Props.C141_early_violated",
    "Fcgi.Props.C141_fails_violated"
   ],
   "note": "C141_partial: names in UTF-8; C141_quiet_partial: without warnings. Violated: C141_early_violated (use before construction), C141_fails_violated."
  },
  {
   "property": "C142",
   "status": "partial",
   "theorems": [
    "Fcgi.Props.C142_port",
    "Fcgi.Props.C142_default",
    "Fcgi.Props.C142_destroy",
    "Fcgi.Props.C142_stays_partial",
    "Fcgi.Props.C142_shared_violated"
   ],
   "note": "C142_port, C142_default, C142_destroy in full; C142_stays_partial if listen() is only called while no other group has descriptor 0; C142_shared_violated otherwise. That listen(interface, service) may never return is C71_listen_violated."
  },
  {
   "property": "C143",
   "status": "partial",
   "theorems": [
    "Fcgi.Props.C143_exact",
    "Fcgi.Props.C143_partial",
    "Fcgi.Props.C143_violated"
   ],
   "note": "C143_exact: what each attempt offers, if none before took everything (that case is C93). C143_partial: all of it, as long as no attempt has taken 4096 bytes; C143_violated: less, otherwise."
  },
  {
   "property": "C144",
   "status": "partial",
   "theorems": [
    "Fcgi.Props.C144_partial",
    "Fcgi.Props.C144_url_partial",
    "Fcgi.Props.C144_wide_partial",
    "Fcgi.Props.C144_header_violated",
    "Fcgi.Props.C144_char_violated"
   ],
   "note": "C144_partial (char) and C144_wide_partial (wchar_t): markup; C144_url_partial: reserved characters; for strings. Violated: C144_header_violated (line ends under Encoding::URL), C144_char_violated (single characters, see C59)."
  },
  {
   "property": "C145",
   "status": "partial",
   "theorems": [
    "Fcgi.Props.C145_first",
    "Fcgi.Props.C145_sql_partial",
    "Fcgi.Props.C145_name_violated",
    "Fcgi.Props.C145_retry_partial",
    "Fcgi.Props.C145_retry_violated",
    "Fcgi.Props.C145_mailer"
   ],
   "note": "C145_first: the first init() counts. C145_sql_partial: where connections go, for non-empty arguments and database names that are no connection strings; C145_name_violated. C145_retry_partial and C145_retry_violated: the interval. C145_mailer: the mailer."
  },
  {
   "property": "C146",
   "status": "partial",
   "theorems": [
    "Fcgi.Props.C146_partial",
    "Fcgi.Props.C146_strings_partial",
    "Fcgi.Props.C146_violated"
   ],
   "note": "C146_partial: identifiers without a plus sign in their text. C146_strings_partial: all identifiers, with a standard library that inserts single characters like strings. C146_violated: identifiers with a plus sign, with libstdc++ 13."
  },
  {
   "property": "C147",
   "status": "partial",
   "theorems": [
    "Fcgi.Props.C147_sessions",
    "Fcgi.Props.C147_partial",
    "Fcgi.Props.C147_locale_violated",
    "Fcgi.Props.C147_long_violated"
   ],
   "note": "C147_partial: the C locale. C147_locale_violated: German names. C147_long_violated: names so long that the text does not fit. C147_sessions: the store with its texts does what the store of C34, C62 and C134 does."
  },
  {
   "property": "C148",
   "status": "proved",
   "theorems": [
    "Fcgi.Props.C148_form_answered",
    "Fcgi.Props.C148_form_closed"
   ],
   "note": "The end-to-end composition, for Request<char>, streams without an encoding and no messages through callbacks. C148_form_answered: any traffic; C148_form_closed: a connection with this request alone. That the server gets to rest at all is C111_rests."
  },
  {
   "property": "C149",
   "status": "proved",
   "theorems": [
    "Fcgi.Props.C149_in_order",
    "Fcgi.Props.C149_closed",
    "Fcgi.Props.C149_taken",
    "Fcgi.Props.C149_form_answered",
    "Fcgi.Props.C149_form_closed",
    "Fcgi.Props.C149_wide_answered",
    "Fcgi.Props.C149_wide_closed"
   ],
   "note": "C149_in_order and C149_closed: any class of the library (narrow or wide), any handlers. C149_form_answered and C149_form_closed: Request<char> with the library's handlers and any response() that selects no encoding; the specification of what the application does over its calls is `played` in Spec/EndToEnd. C149_taken: a callback called for a waiting request is taken in. That the server gets to rest is C111_rests. C149_wide_answered and C149_wide_closed: the same for Request<wchar_t> and a response() that writes text (`playedW` in Spec/LaterWide)."
  },
  {
   "property": "C150",
   "status": "proved",
   "theorems": [
    "Fcgi.Props.C150_form_answered",
    "Fcgi.Props.C150_form_closed"
   ],
   "note": "C150_form_answered and C150_form_closed; the counterpart of C148 for Request<wchar_t>. TellsW: the environment of C148's Tells, decoded (SameEnv, TextsOf of C108). The text hypothesis is about the environments that TellsW allows only, so that an application that echoes what it was sent meets it (the concrete run does). What happens if it writes something else than text is C120_violated."
  },
  {
   "property": "C151",
   "status": "proved",
   "theorems": [
    "Fcgi.Props.C151_told",
    "Fcgi.Props.C151_closed",
    "Fcgi.Props.C151_wide_told",
    "Fcgi.Props.C151_wide_closed"
   ],
   "note": "C151_told, C151_closed (Request<char>) and C151_wide_told, C151_wide_closed (Request<wchar_t>, for a content type that is UTF-8 text). Which requests are refused, and how: `Refusal` in Spec/Refused, in terms of what was sent. The refusal after response() was called is C125_violated."
  },
  {
   "property": "C152",
   "status": "proved",
   "theorems": [
    "Fcgi.Props.C152_taken_answered",
    "Fcgi.Props.C152_taken_closed",
    "Fcgi.Props.C152_wide_answered",
    "Fcgi.Props.C152_wide_closed"
   ],
   "note": "C152_taken_answered and C152_taken_closed for Request<char>, C152_wide_answered and C152_wide_closed for Request<wchar_t>. What the application writes: `takenWrites` in Spec/Taken; what it is given: `GivenBody`. If inProcessor() returns false the body is the library's: C148, C151."
  },
  {
   "property": "C153",
   "status": "proved",
   "theorems": [
    "Fcgi.Props.C153_early_answered",
    "Fcgi.Props.C153_early_closed",
    "Fcgi.Props.C153_waiting_answered",
    "Fcgi.Props.C153_waiting_closed",
    "Fcgi.Props.C153_early_silent",
    "Fcgi.Props.C153_early_not_called",
    "Fcgi.Props.C153_wide_early_answered",
    "Fcgi.Props.C153_wide_early_closed",
    "Fcgi.Props.C153_wide_waiting_answered",
    "Fcgi.Props.C153_wide_waiting_closed",
    "Fcgi.Props.C153_wide_early_silent",
    "Fcgi.Props.C153_wide_early_not_called"
   ],
   "note": "Narrow: C153_early_answered, C153_early_closed, C153_early_silent, C153_early_not_called; C153_waiting_answered, C153_waiting_closed. Wide characters: C153_wide_early_answered, C153_wide_early_closed, C153_wide_early_silent, C153_wide_early_not_called, C153_wide_waiting_answered, C153_wide_waiting_closed. An abort after callbacks have been called is C155_given_up."
  },
  {
   "property": "C154",
   "status": "proved",
   "theorems": [
    "Fcgi.Props.C154_answered",
    "Fcgi.Props.C154_kept",
    "Fcgi.Props.C154_wide_answered",
    "Fcgi.Props.C154_wide_kept"
   ],
   "note": "C154_answered, C154_kept for Request<char>; C154_wide_answered, C154_wide_kept for Request<wchar_t>, where the application writes text. InTurn is a run in which the requests are sent in this way, AnswersTo the answers (each for an environment that Tells what its form says). The example sends any number of forms over one connection. Requests whose callbacks are called are C149."
  },
  {
   "property": "C155",
   "status": "proved",
   "theorems": [
    "Fcgi.Props.C155_in_order",
    "Fcgi.Props.C155_closed",
    "Fcgi.Props.C155_given_up",
    "Fcgi.Props.C155_given_up_closed",
    "Fcgi.Props.C155_wide_given_up",
    "Fcgi.Props.C155_wide_given_up_closed"
   ],
   "note": "C155_in_order, C155_closed: for every application (any program of the library's shape, narrow or wide); C155_given_up, C155_given_up_closed: for applications of Request<char> that keep the handlers; C155_wide_given_up, C155_wide_given_up_closed: the same for Request<wchar_t>, where the application writes text. Phased is a run in phases; C149 is the case of a phase of records and one of calls."
  },
  {
   "property": "C156",
   "status": "proved",
   "theorems": [
    "Fcgi.Props.C156_inside",
    "Fcgi.Props.C156_no_deadlock",
    "Fcgi.Props.C156_others_handled",
    "Fcgi.Props.C156_reaches"
   ],
   "note": "C156_no_deadlock, C156_others_handled, C156_reaches: for every program; C156_inside: a thread inside the application is one the observer of the request sees as having begun a message and not ended it. The hypothesis that no thread has ended excludes stop() and terminate() taking effect meanwhile; the other hypotheses are met in the example (one slow thread, one other, two requests)."
  }
 ]
}