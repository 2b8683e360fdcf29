{
 "claims": [
  {
   "property": "C01",
   "status": "proved",
   "theorems": [
    "Props.Wire.C01_getBoolean",
    "Props.Wire.C01_getUint32",
    "Props.Wire.C01_getUint64",
    "Props.Wire.C01_getStringRef",
    "Props.Wire.C01_getMpint",
    "Props.Wire.C01_getSize",
    "Props.Wire.C01_getSkip",
    "Props.Wire.C01_getString",
    "Props.Wire.C01_getStringAlloc"
   ],
   "note": "Each reader refines the RFC 4251 field grammar; the ub outcome is unreachable."
  },
  {
   "property": "C02",
   "status": "proved",
   "theorems": [
    "Props.Wire.C02_uint32",
    "Props.Wire.C02_boolean",
    "Props.Wire.C02_string",
    "Props.Wire.C03_roundtrip"
   ],
   "note": ""
  },
  {
   "property": "C03",
   "status": "proved",
   "theorems": [
    "Props.Wire.C03_canonical",
    "Props.Wire.C03_deterministic",
    "Props.Wire.C03_roundtrip"
   ],
   "note": ""
  },
  {
   "property": "C04",
   "status": "proved",
   "theorems": [
    "Props.Kex.C04_nameList",
    "Props.Kex.C04_field"
   ],
   "note": ""
  },
  {
   "property": "C05",
   "status": "proved",
   "theorems": [
    "Props.Kex.C05_setter",
    "Props.Kex.C05_no_none"
   ],
   "note": ""
  },
  {
   "property": "C06",
   "status": "partial",
   "theorems": [
    "Props.Kex.C06_choice",
    "Props.Kex.C06_refused",
    "Props.Kex.C06_agree",
    "Props.Kex.C06_accepts_partial",
    "Props.Kex.C06_unknown_first",
    "Props.Kex.C06_unknown_first_witness"
   ],
   "note": "The choice, the refusal and the agreement of two ends hold in full. Acceptance needs that the two lists do not both start with an unsupported name; C06_unknown_first proves the code refuses then (a departure from RFC 4253 section 7.1)."
  },
  {
   "property": "C07",
   "status": "proved",
   "theorems": [
    "Props.Kex.C07_flag",
    "Props.Kex.C07_drop"
   ],
   "note": ""
  },
  {
   "property": "C08",
   "status": "proved",
   "theorems": [
    "Props.Auth.C08_server_connection_after_success",
    "Props.Auth.C08_server_connection_after_credential",
    "Props.Filter.C08_filter"
   ],
   "note": "Over every history of a server session; the first for applications that stop after a fatal error."
  },
  {
   "property": "C09",
   "status": "proved",
   "theorems": [
    "Props.Filter.C09_client_only",
    "Props.Filter.C09_connection",
    "Props.Filter.C09_userauth",
    "Props.Filter.C09_service_accept"
   ],
   "note": "Decision logic of the client filter, for every session state and message number."
  },
  {
   "property": "C10",
   "status": "partial",
   "theorems": [
    "Props.Filter.C10_outside_only_kexinit",
    "Props.Filter.C10_second_kexinit_refused",
    "Props.Filter.C10_only_expected",
    "Props.Filter.C10_client_unexpected",
    "Props.Filter.C10_server_unexpected_partial",
    "Props.Filter.C10_server_unexpected_witness"
   ],
   "note": "Holds in full for clients. A server that expects nothing in particular lets any key exchange number through (witness)."
  },
  {
   "property": "C11",
   "status": "proved",
   "theorems": [
    "Props.Auth.C11_accept_needs_credential",
    "Props.Auth.C08_server_connection_after_credential"
   ],
   "note": ""
  },
  {
   "property": "C12",
   "status": "partial",
   "theorems": [
    "Props.Auth.C12_unsigned",
    "Props.Auth.C12_signed",
    "Props.Auth.C12_signed_partial",
    "Props.Auth.C12_trailing_witness"
   ],
   "note": "Exact for requests that end with their signature; with bytes after it the verified range is longer (witness). Certificates and ML-DSA are not modelled."
  },
  {
   "property": "C13",
   "status": "proved",
   "theorems": [
    "Props.Auth.C13_failures_capped",
    "Props.Auth.C13_failures_capped'",
    "Props.Auth.C13_limit_disconnects",
    "Props.Auth.C13_uncharged_is_opening_none"
   ],
   "note": "At most max failures plus the opening 'none' probe; the request counter is 32 bits, so the exception returns once in 2^32 requests."
  },
  {
   "property": "C14",
   "status": "proved",
   "theorems": [
    "Props.Auth.C14_one_user",
    "Props.Auth.C14_user_fixed",
    "Props.Auth.C14_other_user_refused"
   ],
   "note": ""
  },
  {
   "property": "C41",
   "status": "partial",
   "theorems": [
    "Props.Auth.C41_answers_partial",
    "Props.Auth.C41_unsolicited_witness"
   ],
   "note": "The count and the method are checked; that an information request is outstanding is not (witness)."
  },
  {
   "property": "C42",
   "status": "proved",
   "theorems": [
    "Props.Auth.C42_no_out_of_bounds"
   ],
   "note": ""
  },
  {
   "property": "C38",
   "status": "partial",
   "theorems": [
    "Props.Buffer.C38_grow_partial",
    "Props.Buffer.C38_append",
    "Props.Buffer.C38_shrink_partial",
    "Props.Buffer.C38_free",
    "Props.Buffer.C38_consume",
    "Props.Buffer.C38_init",
    "Props.Buffer.C38_grow_wrap_witness",
    "Props.Buffer.C38_shrink_overlap_witness"
   ],
   "note": "Complete for append, consume, free and init. Growing needs the total to stay below 2^32, shrinking needs non-overlapping ranges; both limits are shown to be real."
  },
  {
   "property": "C15",
   "status": "proved",
   "theorems": [
    "Props.Channel.C15_ids",
    "Props.Channel.C15_new_id"
   ],
   "note": ""
  },
  {
   "property": "C16",
   "status": "partial",
   "theorems": [
    "Props.Channel.C16_bound_partial",
    "Props.Channel.C16_refused_partial",
    "Props.Channel.C16_ext_refused_partial",
    "Props.Channel.C16_parked_credit_overrun"
   ],
   "note": "What is stored always fits. What is refused is data beyond the advertised window plus credit still kept back; during a key exchange the local window opens before the peer is told (witness)."
  },
  {
   "property": "C17",
   "status": "partial",
   "theorems": [
    "Props.Channel.C17_stream_partial",
    "Props.Channel.C17_stalled_read_loses_bytes",
    "Props.Channel.C17_eof_hides_data"
   ],
   "note": "Exact when no read of the channel fails; a ChannelIdRead whose window adjustment fails loses its bytes (witness), stream_read stops at EOF with data waiting (witness). Always: what is returned is a subsequence of what was accepted. Stderr: exact without condition."
  },
  {
   "property": "C18",
   "status": "proved",
   "theorems": [
    "Props.Channel.C18_conserved",
    "Props.Channel.C18_lost",
    "Props.Channel.C18_credit_sent"
   ],
   "note": ""
  },
  {
   "property": "C19",
   "status": "proved",
   "theorems": [
    "Props.ChannelTx.C19_window",
    "Props.ChannelTx.C19_confirmed",
    "Props.ChannelTx.C19_packet",
    "Props.ChannelOpen.C36_answer"
   ],
   "note": "A repeated open confirmation restarts the window; the trace theorem is about the time between confirmations."
  },
  {
   "property": "C20",
   "status": "partial",
   "theorems": [
    "Props.ChannelTx.C20_quiet_partial",
    "Props.ChannelTx.C20_log",
    "Props.ChannelTx.C20_refused",
    "Props.ChannelTx.C20_stalled_eof_then_data"
   ],
   "note": "Holds for an EOF whose packet could be written at once; an EOF queued under WS_WANT_WRITE is forgotten (witness)."
  },
  {
   "property": "C21",
   "status": "partial",
   "theorems": [
    "Props.Channel.C21_drained_partial",
    "Props.Channel.C21_stream_read_starves"
   ],
   "note": "Holds for wolfSSH_ChannelIdRead; wolfSSH_stream_read can leave the peer with a closed window (witness)."
  },
  {
   "property": "C22",
   "status": "proved",
   "theorems": [
    "Props.Channel.C22_adjust"
   ],
   "note": ""
  },
  {
   "property": "C31",
   "status": "partial",
   "theorems": [
    "Props.ChannelTx.C31_quiet_partial",
    "Props.ChannelTx.C31_flushed",
    "Props.ChannelTx.C31_eof_during_rekey",
    "Props.ChannelTx.C31_data_after_kexinit"
   ],
   "note": "Holds for data, stderr data and window adjustments; EOF, close, requests and open messages are sent during a key exchange (witness). A flush before channel data may start a key exchange; the data then follows SSH_MSG_KEXINIT (witness)."
  },
  {
   "property": "C36",
   "status": "partial",
   "theorems": [
    "Props.ChannelOpen.C36_answer",
    "Props.ChannelOpen.C36_one_session",
    "Props.ChannelOpen.C36_client_accepts_session"
   ],
   "note": "Complete but for the role: a client accepts a session from the server (witness)."
  },
  {
   "property": "C43",
   "status": "partial",
   "theorems": [
    "Props.ChannelOpen.C43_exit_partial",
    "Props.ChannelOpen.C43_exit_ends_another"
   ],
   "note": "Needs the peer's numbers of the channels to differ; otherwise another channel is ended (witness)."
  },
  {
   "property": "C44",
   "status": "partial",
   "theorems": [
    "Props.ChannelOpen.C44_shutdown_partial",
    "Props.ChannelOpen.C44_shutdown_silent"
   ],
   "note": "Only if the peer's number for the first channel is also the number of an open channel here (witness for the contrary)."
  },
  {
   "property": "C45",
   "status": "proved",
   "theorems": [
    "Props.ChannelOpen.C45_defined"
   ],
   "note": ""
  },
  {
   "property": "C23",
   "status": "partial",
   "theorems": [
    "Props.Packet.C23_stream_partial",
    "Props.Packet.C23_flush",
    "Props.Packet.C23_failed_packet_leaks_witness"
   ],
   "note": "Exact with working primitives and a transport that takes no more than offered. A failing random generator or cipher leaves the unencrypted payload queued (witness)."
  },
  {
   "property": "C24",
   "status": "proved",
   "theorems": [
    "Props.Packet.C24_emitted"
   ],
   "note": ""
  },
  {
   "property": "C30",
   "status": "partial",
   "theorems": [
    "Props.Highwater.C30_fires_once_partial",
    "Props.Highwater.C30_epoch",
    "Props.Highwater.C30_wrap_witness"
   ],
   "note": "Exact while no counter passes 2^32 between two checks; beyond, the counter wraps (witness)."
  },
  {
   "property": "C25",
   "status": "proved",
   "theorems": [
    "Props.Receive.C25_delivered",
    "Props.Receive.C25_end_to_end"
   ],
   "note": "For payloads up to 32768 bytes (RFC 4253 section 6.1), across rekeys, for every transport schedule; that the ciphers invert is a hypothesis (Laws)."
  },
  {
   "property": "C26",
   "status": "partial",
   "theorems": [
    "Props.Receive.C26_same_messages_partial",
    "Props.Receive.C26_same_state_partial",
    "Props.Receive.C26_same_failure_partial",
    "Props.Receive.C26_same_error_partial",
    "Props.Receive.C26_progress_partial",
    "Props.Receive.C26_read_ahead_witness"
   ],
   "note": "Holds when the buffer does not start out beyond the first packet. Right after the version exchange it can, and then packets are lost (witness)."
  },
  {
   "property": "C27",
   "status": "proved",
   "theorems": [
    "Props.Receive.C27_checked"
   ],
   "note": ""
  },
  {
   "property": "C28",
   "status": "partial",
   "theorems": [
    "Props.Packet.C28_sent",
    "Props.Receive.C28_received",
    "Props.Receive.C28_dropped_witness"
   ],
   "note": "Sender in full. Receiver: counts the packets it is done with; a packet put off and dropped by a flush is not counted (witness)."
  },
  {
   "property": "C29",
   "status": "proved",
   "theorems": [
    "Props.Packet.C29_sent",
    "Props.Packet.C29_distinct",
    "Props.Packet.C29_same",
    "Props.Receive.C29_received"
   ],
   "note": ""
  },
  {
   "property": "C39",
   "status": "proved",
   "theorems": [
    "Props.Version.C39_accepted",
    "Props.Version.C39_determined",
    "Props.Version.C39_never_refused",
    "Props.Version.C39_accepts",
    "Props.Version.C39_memory_witness"
   ],
   "note": "Both directions, for every segmentation and repetition. Without memory nothing is saved (witness)."
  },
  {
   "property": "C32",
   "status": "proved",
   "theorems": [
    "Props.Gex.C32_select",
    "Props.Gex.C32_request",
    "Props.Gex.C32_agree"
   ],
   "note": "The agreement assumes the primality test accepts the server's built-in prime and the client's maximum is below 2^31."
  },
  {
   "property": "C46",
   "status": "proved",
   "theorems": [
    "Props.Gex.C46_accepted"
   ],
   "note": "The primality test is an arbitrary oracle."
  },
  {
   "property": "C33",
   "status": "proved",
   "theorems": [
    "Props.Kdf.C33_key",
    "Props.Kdf.C33_fits",
    "Props.Kdf.C33_keys",
    "Props.Kdf.C33_agree",
    "Props.Kdf.C33_secret"
   ],
   "note": "For every hash function with its stated digest size; the hash itself is abstract."
  },
  {
   "property": "C47",
   "status": "proved",
   "theorems": [
    "Props.Exchange.C47_start",
    "Props.Exchange.C47_server",
    "Props.Exchange.C47_server_hash",
    "Props.Exchange.C47_client_hash"
   ],
   "note": "Key agreement, signing and hash are abstract; certificates and TPM keys are not modelled."
  },
  {
   "property": "C48",
   "status": "proved",
   "theorems": [
    "Props.Exchange.C48_authenticated",
    "Props.Exchange.C48_callback"
   ],
   "note": "For RSA, Ed25519 and plain ML-DSA the client does not look at the algorithm name inside the key blob (the key is read as the negotiated kind)."
  },
  {
   "property": "C49",
   "status": "proved",
   "theorems": [
    "Props.Exchange.C49_constant",
    "Props.Exchange.C49_first"
   ],
   "note": ""
  },
  {
   "property": "C50",
   "status": "proved",
   "theorems": [
    "Props.Exchange.C50_complete"
   ],
   "note": "Correctness of the library (same secret, verifiable signatures, total hash) is a hypothesis (Pair)."
  },
  {
   "property": "C51",
   "status": "proved",
   "theorems": [
    "Props.Exchange.C51_binding",
    "Props.Exchange.C51_no_tampering"
   ],
   "note": ""
  },
  {
   "property": "C34",
   "status": "partial",
   "theorems": [
    "Props.Path.C34_partial",
    "Props.Path.C34_one_byte"
   ],
   "note": "Complete for buffers of two bytes or more and a canonical start path (which the interface asks for); with a buffer of one byte the terminator is written behind it (witness)."
  },
  {
   "property": "C35",
   "status": "partial",
   "theorems": [
    "Props.Path.C35_partial",
    "Props.Path.C35_every_path",
    "Props.Path.C35_single",
    "Props.Path.C35_dotdot",
    "Props.Path.C35_dot",
    "Props.Path.C35_colon",
    "Props.Path.C35_relative"
   ],
   "note": "Bounds, termination and size for every path; the object named is kept for absolute paths without ':'. A leading '..' and a trailing '.' stay, ':' counts as a segment begin, relative paths become absolute (witnesses)."
  },
  {
   "property": "C40",
   "status": "proved",
   "theorems": [
    "Props.Path.C40_offset",
    "Props.Path.C40_mode"
   ],
   "note": ""
  },
  {
   "property": "C52",
   "status": "proved",
   "theorems": [
    "Props.Path.C52_jail",
    "Props.Path.C52_stays_inside"
   ],
   "note": "The file system may not change between check and use."
  },
  {
   "property": "C53",
   "status": "proved",
   "theorems": [
    "Props.Path.C53_canonical"
   ],
   "note": ""
  },
  {
   "property": "C37",
   "status": "proved",
   "theorems": [
    "Props.Request.C37_setup",
    "Props.Request.C37_cancel",
    "Props.Request.C37_other",
    "Props.Request.C37_malformed",
    "Props.Request.C37_fail_closed",
    "Props.Request.C37_keeps_session"
   ],
   "note": "A client handles these requests like a server (the message filter does not stop them)."
  },
  {
   "property": "C54",
   "status": "partial",
   "theorems": [
    "Props.Request.C54_reply",
    "Props.Request.C54_effect",
    "Props.Request.C54_malformed",
    "Props.Request.C54_no_channel",
    "Props.Request.C54_exec_called_anyway",
    "Props.Request.C54_second_succeeds",
    "Props.Request.C54_refused_done"
   ],
   "note": "Replies, calls and effects of well-formed requests in full. A malformed exec or subsystem request still reaches the application, and more than one program start succeeds per channel (witnesses)."
  },
  {
   "property": "C55",
   "status": "proved",
   "theorems": [
    "Props.Sftp.C55"
   ],
   "note": ""
  },
  {
   "property": "C56",
   "status": "partial",
   "theorems": [
    "Props.Sftp.C56_rmdir",
    "Props.Sftp.C56_remove",
    "Props.Sftp.C56_mkdir",
    "Props.Sftp.C56_rename",
    "Props.Sftp.C56_stat",
    "Props.Sftp.C56_fstat",
    "Props.Sftp.C56_setstat_partial",
    "Props.Sftp.C56_fsetstat_partial",
    "Props.Sftp.C56_close",
    "Props.Sftp.C56_no_handle",
    "Props.Sftp.C56_setstat_lie"
   ],
   "note": "SETSTAT and FSETSTAT report success without applying a size, owner or times (witness)."
  },
  {
   "property": "C57",
   "status": "proved",
   "theorems": [
    "Props.Sftp.C57_unique",
    "Props.Sftp.C57_dead",
    "Props.Sftp.C57_used",
    "Props.Sftp.C57_balance",
    "Props.Sftp.C57_balance_dir"
   ],
   "note": "Up to 2^64 requests. A directory may stay open without a handle if there is no memory for the reply."
  },
  {
   "property": "C58",
   "status": "partial",
   "theorems": [
    "Props.Sftp.C58_partial",
    "Props.Sftp.C58_entry",
    "Props.Sftp.C58_start",
    "Props.Sftp.C58_dotdot"
   ],
   "note": "All requests but READDIR, which looks at '..' of the jail (witness). The file system may not change between check and use."
  },
  {
   "property": "C59",
   "status": "proved",
   "theorems": [
    "Props.Sftp.C59_write",
    "Props.Sftp.C59_read"
   ],
   "note": "READ up to 32768 bytes (longer ones get no reply, C64)."
  },
  {
   "property": "C60",
   "status": "proved",
   "theorems": [
    "Props.Sftp.C60_modes",
    "Props.Sftp.C60_open"
   ],
   "note": ""
  },
  {
   "property": "C61",
   "status": "partial",
   "theorems": [
    "Props.Sftp.C61_partial",
    "Props.Sftp.C61_truncated"
   ],
   "note": "The first entry whose path has 256 bytes or more ends the listing silently (witness)."
  },
  {
   "property": "C62",
   "status": "partial",
   "theorems": [
    "Props.ChannelTx.C62_reported_partial",
    "Props.ChannelTx.C62_failed",
    "Props.ChannelTx.C62_lost"
   ],
   "note": "If the flush of other pending output stalls, the call reports all bytes as sent and queues none (witness)."
  },
  {
   "property": "C63",
   "status": "partial",
   "theorems": [
    "Props.Sftp.C63_partial",
    "Props.Sftp.C63_end_partial",
    "Props.Sftp.C63_same_partial",
    "Props.Sftp.C63_progress",
    "Props.Sftp.C63_stale",
    "Props.Sftp.C63_lost"
   ],
   "note": "Assumes that a successful read leaves no old error code and no reply gets lost (C62); witnesses for both."
  },
  {
   "property": "C64",
   "status": "partial",
   "theorems": [
    "Props.Sftp.C64_partial",
    "Props.Sftp.C64_silent"
   ],
   "note": "The exact list of requests that are not answered is in the statement (Silent)."
  },
  {
   "property": "C65",
   "status": "proved",
   "theorems": [
    "Props.Sftp.C65"
   ],
   "note": ""
  },
  {
   "property": "C66",
   "status": "partial",
   "theorems": [
    "Props.Sftp.C66_partial",
    "Props.Sftp.C66_quiet_partial",
    "Props.Sftp.C66_progress",
    "Props.Sftp.C66_garbage",
    "Props.Sftp.C66_lost"
   ],
   "note": "Assumes VERSION is sent as a whole; otherwise part of it is sent twice (witness)."
  },
  {
   "property": "C67",
   "status": "proved",
   "theorems": [
    "Props.Keying.C67_credentials_only_to_a_checked_server"
   ],
   "note": "The application stops at an error that ends the session."
  },
  {
   "property": "C68",
   "status": "proved",
   "theorems": [
    "Props.Keying.C68_keys_change_in_order",
    "Props.Keying.C68_after_an_error"
   ],
   "note": "The application stops at an error that ends the session; the second theorem shows that this is needed on a server."
  },
  {
   "property": "C69",
   "status": "partial",
   "theorems": [
    "Props.Keying.C69_one_kexinit_per_exchange_partial",
    "Props.Keying.C69_refuted",
    "Props.Keying.C69_highwater",
    "Props.Keying.C69_trigger_loses_the_session"
   ],
   "note": "Without calls of wolfSSH_TriggerKeyExchange and highwater callbacks during an exchange; both send a second KEXINIT (witness)."
  },
  {
   "property": "C70",
   "status": "partial",
   "theorems": [
    "Props.Keying.C70_exchange_completes_partial",
    "Props.Keying.C70_client_stuck",
    "Props.Keying.C70_refuted"
   ],
   "note": "On a server always, on a client after wolfSSH_connect has succeeded. Before that a client never answers (proved for every continuation)."
  },
  {
   "property": "C71",
   "status": "proved",
   "theorems": [
    "Props.Scp.C71_file",
    "Props.Scp.C71_dir",
    "Props.Scp.C71_times",
    "Props.Scp.C71_end",
    "Props.Scp.C71_long"
   ],
   "note": "Names up to 1005 bytes; a longer one loses the newline (C71_long)."
  },
  {
   "property": "C72",
   "status": "proved",
   "theorems": [
    "Props.Scp.C72_defined",
    "Props.Scp.C72_file",
    "Props.Scp.C72_dir",
    "Props.Scp.C72_times",
    "Props.Scp.C72_else"
   ],
   "note": "The byte after the mode is not looked at; after the name a NUL may hide anything; the specification says so."
  },
  {
   "property": "C73",
   "status": "partial",
   "theorems": [
    "Props.Scp.C73_names_partial",
    "Props.Scp.C73_rename_partial",
    "Props.Scp.C73_empty_opens_nameless",
    "Props.Scp.C73_empty_repeats"
   ],
   "note": "Without reads of no bytes. An empty data message where a message is expected repeats the last message or opens a file without a name (witnesses)."
  },
  {
   "property": "C74",
   "status": "proved",
   "theorems": [
    "Props.Scp.C74_orderly",
    "Props.Scp.C74_no_crash"
   ],
   "note": "For all histories."
  },
  {
   "property": "C75",
   "status": "partial",
   "theorems": [
    "Props.Scp.C75_prefix_partial",
    "Props.Scp.C75_all_partial",
    "Props.Scp.C75_no_deadlock_partial",
    "Props.Scp.C75_next_message_lost",
    "Props.Scp.C75_confirmation_unread",
    "Props.Scp.C75_times_stay"
   ],
   "note": "Assumes that a burst begins to arrive only when the one before has been read, no data on the error stream, and no entry without times after a directory with times. Without these a message is lost, refused, or gets wrong times (witnesses)."
  },
  {
   "property": "C76",
   "status": "partial",
   "theorems": [
    "Props.Scp.C76_abort_final",
    "Props.Scp.C76_other_answer_is_confirmed"
   ],
   "note": "Proved for abort. An answer that is neither abort nor continue is confirmed as success (witness)."
  },
  {
   "property": "C77",
   "status": "partial",
   "theorems": [
    "Props.Scp.C77_protocol",
    "Props.Scp.C77_confirmed_partial",
    "Props.Scp.C77_unread_confirmation"
   ],
   "note": "Order and bytes for all histories. That a confirmation is a zero byte of the peer assumes no reads of no bytes and no data on the error stream (witness)."
  },
  {
   "property": "C78",
   "status": "partial",
   "theorems": [
    "Props.Scp.C78_script",
    "Props.Scp.C78_copy_partial",
    "Props.Scp.C78_grown_file_makes_another",
    "Props.Scp.C78_newline_in_name"
   ],
   "note": "Assumes that the callback supplies as many bytes as announced, names are plain without newline and fit, and the pace of C75. Otherwise contents are taken for messages (witness)."
  },
  {
   "property": "C79",
   "status": "partial",
   "theorems": [
    "Props.Scp.C79_confined_partial",
    "Props.Scp.C79_nameless",
    "Props.Scp.C79_name_is_a_path"
   ],
   "note": "Assumes that a name split off the local destination is plain (C81; otherwise witness), and changes by others only between calls. An empty data message at the start makes the callback use a NULL name (witness)."
  },
  {
   "property": "C80",
   "status": "partial",
   "theorems": [
    "Props.Scp.C80_stored_partial",
    "Props.Scp.C80_copy_partial",
    "Props.Scp.C80_file_mode_ignored",
    "Props.Scp.C80_dir_times_ignored",
    "Props.Scp.C80_lost_at_close"
   ],
   "note": "Contents, places, directory permissions and file times, under the assumptions of C75 and C78 and with a file system that does not fail. Permissions of files and times of directories are not kept, and a failure when a file is closed goes unnoticed (proved)."
  },
  {
   "property": "C81",
   "status": "partial",
   "theorems": [
    "Props.Scp.C81_parts",
    "Props.Scp.C81_client_partial",
    "Props.Scp.C81_command_from",
    "Props.Scp.C81_command_to_partial",
    "Props.Scp.C81_wrong_place",
    "Props.Scp.C81_root",
    "Props.Scp.C81_into_directory",
    "Props.Scp.C81_option_in_path"
   ],
   "note": "For every path: the parts make up the path, no read outside. For canonical absolute paths without ':' and without \" -\": parent and last component. Other paths are cut in the wrong place, refused, or read as options (witnesses)."
  },
  {
   "property": "C82",
   "status": "partial",
   "theorems": [
    "Props.Scp.C82_tree_partial",
    "Props.Scp.C82_file_partial",
    "Props.Scp.C82_copy_partial",
    "Props.Scp.C82_backslash_in_directory",
    "Props.Scp.C82_pipe_in_directory",
    "Props.Scp.C82_link_in_directory",
    "Props.Scp.C82_no_name",
    "Props.Scp.C82_size_wraps",
    "Props.Scp.C82_second_transfer"
   ],
   "note": "For trees of files under 4 GiB with plain names on a file system that does not change, with a fresh context. A backslash in a directory name, a pipe, a link, a separator at the end, a file of 4 GiB or a second transfer with the same context break it (witnesses)."
  },
  {
   "property": "C83",
   "status": "proved",
   "theorems": [
    "Props.OsshCert.C83_parse",
    "Props.OsshCert.C83_fields",
    "Props.OsshCert.C83_safe",
    "Props.OsshCert.C83_unique"
   ],
   "note": "For user certificates with RSA, ECDSA and Ed25519 keys. RSA certificates may also carry the names rsa-sha2-256/512-cert-v01."
  },
  {
   "property": "C84",
   "status": "proved",
   "theorems": [
    "Props.OsshCert.C84_options"
   ],
   "note": "Extensions (permit-pty and so on) are parsed and ignored; the library does not enforce them."
  },
  {
   "property": "C85",
   "status": "proved",
   "theorems": [
    "Props.OsshCert.C85_decision",
    "Props.OsshCert.C85_safe",
    "Props.OsshCert.C85_asked",
    "Props.OsshCert.C85_trailing_witness",
    "Props.Auth.C12_signed"
   ],
   "note": "The arithmetic of the signature schemes is an arbitrary function. Bytes after the signature fields, and the type name inside an ECDSA or Ed25519 signature, are not looked at (the specification says so; witness)."
  },
  {
   "property": "C86",
   "status": "partial",
   "theorems": [
    "Props.Sshd.C86_sound",
    "Props.Sshd.C86_complete_partial",
    "Props.Sshd.C86_present",
    "Props.Sshd.C86_unopened",
    "Props.Sshd.C86_malformed_witness",
    "Props.Sshd.C86_long_comment_witness"
   ],
   "note": "Both directions for files without NUL bytes whose lines fit the buffer, completeness if the lines before are readable; for every file at all, what is found stands in it. A line that cannot be read ends the search, and the tail of an over-long comment counts as a line (witnesses)."
  },
  {
   "property": "C87",
   "status": "partial",
   "theorems": [
    "Props.Sshd.C87_path",
    "Props.Sshd.C87_own_partial",
    "Props.Sshd.C87_search",
    "Props.Sshd.C87_collision_witness"
   ],
   "note": "The path exactly. Different users have different files if they have the same home directory; with different ones `%h%u` can collide (witness)."
  },
  {
   "property": "C88",
   "status": "partial",
   "theorems": [
    "Props.Sshd.C88_principal",
    "Props.Sshd.C88_validity",
    "Props.Sshd.C88_source_partial",
    "Props.Sshd.C88_prefix",
    "Props.Sshd.C88_list_witness"
   ],
   "note": "inet_pton is an arbitrary function. Lists that end with a comma or have a NUL byte are accepted though malformed (witness)."
  },
  {
   "property": "C89",
   "status": "proved",
   "theorems": [
    "Props.Sshd.C89_open",
    "Props.Sshd.C89_keys"
   ],
   "note": "What the system answers is an input, one answer per question; `realpath` gives absolute paths. Owners of directories are not looked at by the code, nor required by the statement."
  },
  {
   "property": "C90",
   "status": "partial",
   "theorems": [
    "Props.Sshd.C90_scope_partial",
    "Props.Sshd.C90_prefix_witness",
    "Props.Sshd.C90_long_line_witness",
    "Props.Sshd.C90_include_witness",
    "Props.Sshd.C90_openssh_witness"
   ],
   "note": "For one file without Include whose lines fit the buffer and whose keywords do not merely start with a known one; in the other cases it fails (witnesses)."
  },
  {
   "property": "C91",
   "status": "proved",
   "theorems": [
    "Props.Sshd.C91_mistakes",
    "Props.Sshd.C91_loop"
   ],
   "note": "For files without NUL bytes whose lines fit the buffer; at every depth of inclusion. Keywords that only start with a known one count as known (C90)."
  },
  {
   "property": "C92",
   "status": "partial",
   "theorems": [
    "Props.Sshd.C92_password_partial",
    "Props.Sshd.C92_password_exact",
    "Props.Sshd.C92_rights",
    "Props.Sshd.C92_file",
    "Props.Sshd.C92_username",
    "Props.Sshd.C92_nul_witness"
   ],
   "note": "POSIX with libcrypt, no PAM; crypt, the user and the shadow database are arbitrary. Exact for passwords without NUL bytes; of others only the beginning is hashed while emptiness is judged by the length, so a password of one NUL byte logs in to an account with an empty hash although empty passwords are forbidden (witness)."
  },
  {
   "property": "C93",
   "status": "partial",
   "theorems": [
    "Props.Sshd.C93_key_partial",
    "Props.Sshd.C93_key_only",
    "Props.Sshd.C93_strict_witness"
   ],
   "note": "Exact if StrictModes is the same in all sections and the keys files are well formed; soundness for all files. StrictModes of a Match section is ignored (witness)."
  },
  {
   "property": "C94",
   "status": "partial",
   "theorems": [
    "Props.Sshd.C94_ossh_partial",
    "Props.Sshd.C94_ossh_listed",
    "Props.Sshd.C94_x509",
    "Props.Sshd.C94_upn"
   ],
   "note": "Exact for well-formed files of authorities and source-address lists without the defects of C88; soundness for all. The verification of X.509 chains and the parsing of X.509 are inputs."
  },
  {
   "property": "C95",
   "status": "proved",
   "theorems": [
    "Props.Sshd.C95_guesses",
    "Props.Sshd.C95_wrong",
    "Props.Sshd.C95_third"
   ],
   "note": "C95_wrong assumes crypt returns something; if it fails the request fails without being counted."
  },
  {
   "property": "C96",
   "status": "partial",
   "theorems": [
    "Props.Login.C96_rejected_partial",
    "Props.Login.C96_stays",
    "Props.Login.C96_setup_witness"
   ],
   "note": "For passwords, keys and keyboard answers, in sessions whose application stops at fatal errors. A rejection given while keyboard questions are set up counts as an ordinary failure (witness), against wolfssh/ssh.h."
  },
  {
   "property": "C97",
   "status": "proved",
   "theorems": [
    "Props.Login.C97_login"
   ],
   "note": "Composes C11 with C92-C94. X.509 certificates are left to C94_x509. The user name counts up to its first NUL byte."
  },
  {
   "property": "C98",
   "status": "partial",
   "theorems": [
    "Props.Session.C98_program",
    "Props.Session.C98_sftp",
    "Props.Session.C98_scp",
    "Props.Session.C98_force_partial",
    "Props.Session.C98_served",
    "Props.Session.C98_login_shell",
    "Props.Session.C98_force_witness",
    "Props.Session.C98_mask_witness",
    "Props.Session.C98_long_shell_witness",
    "Props.Session.C98_scp_prefix_witness"
   ],
   "note": "Proved of programs, of what certificates force without a configured ForceCommand, and of transfers under certificates and of root. ForceCommand does not keep other users from SFTP and SCP, and masks the certificate's command (witnesses). A shell path of 80 bytes is cut; commands that begin with scp are taken for SCP (witnesses)."
  },
  {
   "property": "C99",
   "status": "proved",
   "theorems": [
    "Props.Session.C99_identity",
    "Props.Session.C99_relay",
    "Props.Session.C99_groups",
    "Props.Session.C99_nobody"
   ],
   "note": "System calls are modelled by their POSIX effects and an arbitrary pattern of failures. A relative ChrootDirectory is passed to chdir and then to chroot. The relay keeps the groups of the daemon; it is not among what works for the user."
  },
  {
   "property": "C100",
   "status": "proved",
   "theorems": [
    "Props.SftpClient.C100_get",
    "Props.SftpClient.C100_put",
    "Props.SftpClient.C100_read"
   ],
   "note": "The handle state that a given-up transfer can leave behind must be empty when it starts. Whatever length a server announces, only what arrives is stored; a string length that contradicts the packet length is believed (see DESIGN)."
  },
  {
   "property": "C101",
   "status": "partial",
   "theorems": [
    "Props.SftpClient.C101_opened",
    "Props.SftpClient.C101_offsets",
    "Props.SftpClient.C101_partial",
    "Props.SftpClient.C101_whole_partial",
    "Props.SftpClient.C101_cut_length",
    "Props.SftpClient.C101_empty_packet"
   ],
   "note": "Proved for replies cut anywhere but within the four bytes that give the length of a piece; there junk is used (witness). A packet without a body is taken for the end of the file (witness)."
  },
  {
   "property": "C102",
   "status": "partial",
   "theorems": [
    "Props.SftpClient.C102_sent",
    "Props.SftpClient.C102_partial",
    "Props.SftpClient.C102_resumed",
    "Props.SftpClient.C102_refused",
    "Props.SftpClient.C102_unread",
    "Props.SftpClient.C102_resumed_case"
   ],
   "note": "Proved if no write fails, the local file can be read, and the store is not resumed. A refused write and a failed read end in success; a resumed store empties the remote file first, so its beginning becomes zeros (witnesses)."
  },
  {
   "property": "C103",
   "status": "partial",
   "theorems": [
    "Props.SftpClient.C103_save_partial",
    "Props.SftpClient.C103_resume_partial",
    "Props.SftpClient.C103_complete_partial",
    "Props.SftpClient.C103_older"
   ],
   "note": "Proved if no offset was saved under these names before the interrupted fetch; otherwise the older offset is used (witness)."
  },
  {
   "property": "C104",
   "status": "partial",
   "theorems": [
    "Props.SftpClient.C104_put_partial",
    "Props.SftpClient.C104_cut_write",
    "Props.SftpClient.C104_closed_twice",
    "Props.SftpClient.C104_open_restarted"
   ],
   "note": "Proved of stores without a failed write. A failed write is followed by a close request in its middle; close requests are repeated under back-pressure; a fetch restarts a request to open that is half sent (witnesses)."
  },
  {
   "property": "C105",
   "status": "partial",
   "theorems": [
    "Props.KnownHosts.C105_known",
    "Props.KnownHosts.C105_unknown",
    "Props.KnownHosts.C105_only",
    "Props.KnownHosts.C105_same",
    "Props.KnownHosts.C105_empty",
    "Props.KnownHosts.C105_cert_partial",
    "Props.KnownHosts.C105_override"
   ],
   "note": "Base64 and the parsing of X.509 are arbitrary functions. Proved without the override option; with it any host key with a certificate is accepted, also one that contradicts the file or that the user has refused (witness). With a missing or empty file every server is refused and nobody asked (C105_empty)."
  },
  {
   "property": "C106",
   "status": "partial",
   "theorems": [
    "Props.KnownHosts.C106_partial",
    "Props.KnownHosts.C106_lookup",
    "Props.KnownHosts.C106_next_partial",
    "Props.KnownHosts.C106_nul"
   ],
   "note": "For files without NUL bytes that can be read again; entries behind a NUL byte are never found (witness)."
  },
  {
   "property": "C107",
   "status": "proved",
   "theorems": [
    "Props.KnownHosts.C107"
   ],
   "note": "Composes C48 with C105. Builds without certificates, or certificates without the override option of C105."
  },
  {
   "property": "C108",
   "status": "proved",
   "theorems": [
    "Props.KnownHosts.C108",
    "Props.KnownHosts.C108_error"
   ],
   "note": "strtol is modelled as of C99: white space and a plus sign before the port are accepted."
  },
  {
   "property": "C109",
   "status": "proved",
   "theorems": [
    "Props.ClientAuth.C109_requests",
    "Props.ClientAuth.C109_size",
    "Props.ClientAuth.C109_offered"
   ],
   "note": "RSA, ECDSA, Ed25519 and their certificates; the arithmetic of signing is an arbitrary function. The client tries one key per session, and none before it has a list of the server's algorithms (C110_unannounced)."
  },
  {
   "property": "C110",
   "status": "partial",
   "theorems": [
    "Props.ClientAuth.C110_limits",
    "Props.ClientAuth.C110_password",
    "Props.ClientAuth.C110_unannounced",
    "Props.ClientAuth.C110_unasked"
   ],
   "note": "Prompts are shown and answered though keyboard-interactive was never requested (C110_unasked)."
  },
  {
   "property": "C111",
   "status": "proved",
   "theorems": [
    "Props.ClientAuth.C111_password"
   ],
   "note": "For a client that was not also offered keyboard-interactive, which it prefers without asking."
  },
  {
   "property": "C112",
   "status": "proved",
   "theorems": [
    "Props.ClientAuth.C112_publicKey"
   ],
   "note": "For servers that accept all modelled algorithms and verify with the scheme of the key's type. That the scheme accepts its own signatures is a hypothesis on the arithmetic."
  },
  {
   "property": "C113",
   "status": "proved",
   "theorems": [
    "Props.ClientAuth.C113_methods",
    "Props.ClientAuth.C113_prompts",
    "Props.ClientAuth.C113_algorithms"
   ],
   "note": "At most 64 prompts, messages below 2^32 bytes. Of a text with a NUL byte the client shows the part before it."
  },
  {
   "property": "C114",
   "status": "partial",
   "theorems": [
    "Props.SftpOps.C114_partial",
    "Props.SftpOps.C114_chmod_mixed"
   ],
   "note": "Proved of all calls but CHMOD, which mixes two packets when it is called again after a notice other than WANT_READ and WANT_WRITE (witness). Attributes given to SetSTAT have no extension flag."
  },
  {
   "property": "C115",
   "status": "partial",
   "theorems": [
    "Props.SftpOps.C115",
    "Props.SftpOps.C115_chmod_partial",
    "Props.SftpOps.C115_chmod_nothing",
    "Props.SftpOps.C115_rename_empty"
   ],
   "note": "Proved of all calls but CHMOD; of CHMOD if no refusal is read while an old notice is pending. A server that tells no modes is not asked to change one by CHMOD, and a rename takes a packet without a body for success (witnesses)."
  },
  {
   "property": "C116",
   "status": "partial",
   "theorems": [
    "Props.SftpOps.C116",
    "Props.SftpOps.C116_chmod_partial"
   ],
   "note": "Composes C115 with C56. The server sets only the mode of a SETSTAT (C56). The answer to the question about the file is arbitrary attributes."
  },
  {
   "property": "C117",
   "status": "proved",
   "theorems": [
    "Props.SftpLs.C117"
   ],
   "note": ""
  },
  {
   "property": "C118",
   "status": "partial",
   "theorems": [
    "Props.SftpLs.C118_partial",
    "Props.SftpLs.C118_failure",
    "Props.SftpLs.C118_empty",
    "Props.SftpLs.C118_big",
    "Props.SftpLs.C118_cut"
   ],
   "note": "Proved for packets of up to 1 MiB and a connection that only asks to be called again. A listing the server breaks off with an error looks whole, an empty directory looks like a failure, longer packets are left in the channel and a full window loses the listing (theorems and witnesses)."
  },
  {
   "property": "C119",
   "status": "partial",
   "theorems": [
    "Props.SftpLs.C119_partial"
   ],
   "note": "For directories whose NAME packet has at most 1 MiB (C118_big) and names that make paths below 256 bytes (C61_truncated)."
  },
  {
   "property": "C120",
   "status": "partial",
   "theorems": [
    "Props.ClientReq.C120_partial",
    "Props.ClientReq.C120_unnamed",
    "Props.ClientReq.C120_default",
    "Props.ClientReq.C120_refused",
    "Props.ClientReq.C120_ignored",
    "Props.ClientReq.C120_no_command",
    "Props.ClientReq.C120_terminal_stays"
   ],
   "note": "Proved for names of 1 to 4095 bytes. Others are ignored with success and an earlier name is used (theorem)."
  },
  {
   "property": "C121",
   "status": "proved",
   "theorems": [
    "Props.ClientReq.C121_exec",
    "Props.ClientReq.C121_subsystem",
    "Props.ClientReq.C121_shell",
    "Props.ClientReq.C121_pty",
    "Props.ClientReq.C121_resize",
    "Props.ClientReq.C121_agent",
    "Props.ClientReq.C121_exit"
   ],
   "note": "Composes with C54. Terminal sizes and modes for builds with terminal support at both ends."
  },
  {
   "property": "C122",
   "status": "proved",
   "theorems": [
    "Props.ClientReq.C122_setup",
    "Props.ClientReq.C122_cancel",
    "Props.ClientReq.C122_refused",
    "Props.ClientReq.C122_reply",
    "Props.ClientReq.C122_global"
   ],
   "note": "Composes with C37. The receiving side keeps the first 79 bytes of the name of another global request."
  },
  {
   "property": "C123",
   "status": "partial",
   "theorems": [
    "Props.Setup.C123_once",
    "Props.Setup.C123_all",
    "Props.Setup.C123_progress",
    "Props.Setup.C123_worker"
   ],
   "note": "Proved for applications that call only wolfSSH_connect until it is over; wolfSSH_worker in between repeats a message (witness). Named without the suffix since each theorem states its full claim about those applications."
  },
  {
   "property": "C124",
   "status": "partial",
   "theorems": [
    "Props.Setup.C124_partial",
    "Props.Setup.C124_success",
    "Props.Setup.C124_terminal"
   ],
   "note": "Proved without a terminal; with one it is the terminal that was accepted, and the shell may still be refused (witness)."
  },
  {
   "property": "C125",
   "status": "partial",
   "theorems": [
    "Props.Modes.C125_total",
    "Props.Modes.C125_char",
    "Props.Modes.C125_flag_partial",
    "Props.Modes.C125_speed",
    "Props.Modes.C125_frame",
    "Props.Modes.C125_ocrnl"
   ],
   "note": "Proved but for OCRNL, which the code leaves alone. A flag is one whose bits belong to no other flag."
  },
  {
   "property": "C126",
   "status": "partial",
   "theorems": [
    "Props.Modes.C126_sent",
    "Props.Modes.C126_char",
    "Props.Modes.C126_flag_partial",
    "Props.Modes.C126_bits",
    "Props.Modes.C126_speed"
   ],
   "note": "Proved of control characters and of flags whose bits belong to no other flag, OCRNL excepted. The number of bits of a character arrives wrong and speeds are not in bits per second (witnesses)."
  },
  {
   "property": "C127",
   "status": "proved",
   "theorems": [
    "Props.Agent.C127_asked",
    "Props.Agent.C127_signature",
    "Props.Agent.C127_agent",
    "Props.Agent.C127_history",
    "Props.Agent.C127_unset"
   ],
   "note": "With the I/O callback set (without it the call is undefined, theorem), allocations that succeed, and identities that take less than 4 GiB. An answer must come with one read of at most 2048 bytes."
  },
  {
   "property": "C128",
   "status": "partial",
   "theorems": [
    "Props.Agent.C128_partial",
    "Props.Agent.C128_lost",
    "Props.Agent.C128_planted",
    "Props.Agent.C128_strange"
   ],
   "note": "Proved for answers of the types agents send. Requests sent as answers are carried out: they add or remove identities, and an unknown type loses a buffer (theorems)."
  },
  {
   "property": "C129",
   "status": "partial",
   "theorems": [
    "Props.Agent.C129_partial",
    "Props.Agent.C129_connects",
    "Props.Agent.C129_unwritten"
   ],
   "note": "Proved unless the first write fails with a code other than the general one, which is passed over (theorem)."
  },
  {
   "property": "C130",
   "status": "partial",
   "theorems": [
    "Props.ServerSetup.C130_partial",
    "Props.ServerSetup.C130_turn",
    "Props.ServerSetup.C130_all",
    "Props.ServerSetup.C130_progress",
    "Props.ServerSetup.C130_agent_twice",
    "Props.ServerSetup.C130_keys"
   ],
   "note": "Proved but for the request for an agent channel, which is made again and whose agent context is lost when the transport takes only a part of it (witness)."
  },
  {
   "property": "C131",
   "status": "partial",
   "theorems": [
    "Props.HostKeys.C131_partial",
    "Props.HostKeys.C131_taken",
    "Props.HostKeys.C131_bounds",
    "Props.HostKeys.C131_memory",
    "Props.HostKeys.C131_formats"
   ],
   "note": "Proved while memory lasts. If the copy of a key for its certificate cannot be allocated the call fails but has replaced the key (witness). Without TPM."
  },
  {
   "property": "C132",
   "status": "partial",
   "theorems": [
    "Props.HostKeys.C132_partial",
    "Props.HostKeys.C132_cert_alone"
   ],
   "note": "Proved but for the private key of a certificate that was loaded alone: it is offered although the server cannot sign with it (witness)."
  },
  {
   "property": "C133",
   "status": "partial",
   "theorems": [
    "Props.SshdShell.C133_partial",
    "Props.SshdShell.C133_ends",
    "Props.SshdShell.C133_stderr_lost",
    "Props.SshdShell.C133_errno",
    "Props.SshdShell.C133_gap"
   ],
   "note": "Order and stdout proved when the relay ends by itself. Lost: stderr beyond 32768 bytes at the end; stdout when a stale errno breaks the relay off; output held back when it is broken off (witnesses). On POSIX systems."
  },
  {
   "property": "C134",
   "status": "partial",
   "theorems": [
    "Props.SshdShell.C134_partial",
    "Props.SshdShell.C134_short",
    "Props.SshdShell.C134_stuck",
    "Props.SshdShell.C134_eof"
   ],
   "note": "Order proved, and that nothing is passed over if the child takes whole blocks. A short write loses data; data that came while output was held stays unread and stops the relay until the client sends more, or is lost at the end of its data (theorems)."
  },
  {
   "property": "C135",
   "status": "proved",
   "theorems": [
    "Props.PemBundle.C135_file",
    "Props.PemBundle.C135_any"
   ],
   "note": "Decoding a block and the certificate manager are inputs. In files headers and footers stand at the beginning of a line, with only blanks behind them."
  },
  {
   "property": "C136",
   "status": "partial",
   "theorems": [
    "Props.OsshKey.C136_partial",
    "Props.OsshKey.C136_written",
    "Props.OsshKey.C136_safe",
    "Props.OsshKey.C136_clear",
    "Props.OsshKey.C136_curve"
   ],
   "note": "Acceptance is characterised exactly and keys written are read back. Not refused: a file that names a cipher, whose public key in clear is another one, whose curve name is another one, or whose last block is not full and wrongly padded (C136_clear, C136_curve, Readable)."
  },
  {
   "property": "C137",
   "status": "proved",
   "theorems": [
    "Props.OsshKey.C137",
    "Props.OsshKey.C137_caller"
   ],
   "note": "Objects of wolfCrypt as states (zeroed, live, freed); freeing zeroed memory does nothing."
  },
  {
   "property": "C138",
   "status": "partial",
   "theorems": [
    "Props.ReadKey.C138_partial",
    "Props.ReadKey.C138_reads",
    "Props.ReadKey.C138_type",
    "Props.ReadKey.C138_unknown",
    "Props.ReadKey.C138_negative",
    "Props.ReadKey.C138_mismatch"
   ],
   "note": "Both directions proved for every format. Not true of public RSA keys in DER whose exponent has its high bit set (C138_negative); the type in a line of text is not compared with that in its key, and an unknown one is given as `unknown` (C138_mismatch, C138_unknown)."
  },
  {
   "property": "C139",
   "status": "partial",
   "theorems": [
    "Props.ReadKey.C139_partial",
    "Props.ReadKey.C139_wiped",
    "Props.ReadKey.C139_defined",
    "Props.ReadKey.C139_overflow",
    "Props.ReadKey.C139_ignored",
    "Props.ReadKey.C139_size"
   ],
   "note": "Proved but for public keys in DER, for which the caller's buffer is ignored and its size changed by a failure (C139_ignored, C139_size), and a text of 2^32 - 1 bytes (C139_overflow)."
  },
  {
   "property": "C140",
   "status": "partial",
   "theorems": [
    "Props.CertMan.C140_partial",
    "Props.CertMan.C140_store",
    "Props.CertMan.C140_chain",
    "Props.CertMan.C140_refused",
    "Props.CertMan.C140_grows",
    "Props.CertMan.C140_stale",
    "Props.CertMan.C140_failed"
   ],
   "note": "Proved for all histories. Intermediate certificates of peers stay trusted for all later connections, also after they have expired or if the chain was refused, so that they need not be valid at the time of a check (C140_stale, C140_failed); C140_chain is the full claim relative to what is trusted before."
  },
  {
   "property": "C141",
   "status": "partial",
   "theorems": [
    "Props.CertMan.C141_partial",
    "Props.CertMan.C141_null",
    "Props.CertMan.C141_null_occurs"
   ],
   "note": "Proved if the signer of the first certificate is found when it is decoded; otherwise a NULL pointer can be followed (C141_null)."
  },
  {
   "property": "C142",
   "status": "proved",
   "theorems": [
    "Props.Composite.C142",
    "Props.Composite.C142_domain",
    "Props.Composite.C142_server",
    "Props.Composite.C142_padded"
   ],
   "note": "Parts of a signature and hashes are parameters. Numbers of ECDSA need not be in their shortest form (C142_padded)."
  },
  {
   "property": "C143",
   "status": "proved",
   "theorems": [
    "Props.Composite.C143",
    "Props.Composite.C143_signs",
    "Props.Composite.C143_mpint",
    "Props.Composite.C143_auth"
   ],
   "note": "Private keys are assumed to match the public ones."
  },
  {
   "property": "C144",
   "status": "proved",
   "theorems": [
    "Props.TransMsg.C144",
    "Props.TransMsg.C144_ignore",
    "Props.TransMsg.C144_unimplemented",
    "Props.TransMsg.C144_debug",
    "Props.TransMsg.C144_debug_refused"
   ],
   "note": "For payloads shorter than 2^32 bytes, which is what DoReceive takes in."
  },
  {
   "property": "C145",
   "status": "partial",
   "theorems": [
    "Props.TransMsg.C145_partial",
    "Props.TransMsg.C145_received",
    "Props.TransMsg.C145_ignore_data",
    "Props.TransMsg.C145_disconnect"
   ],
   "note": "Proved but for wolfSSH_SendIgnore, which drops the bytes of its caller and sends 128 zeros (C145_ignore_data)."
  },
  {
   "property": "C146",
   "status": "proved",
   "theorems": [
    "Props.CertKey.C146",
    "Props.CertKey.C146_size",
    "Props.CertKey.C146_other",
    "Props.CertKey.C146_hash",
    "Props.CertKey.C146_read"
   ],
   "note": "For certificates that are 100 bytes shorter than 2^32."
  },
  {
   "property": "C147",
   "status": "partial",
   "theorems": [
    "Props.CertKey.C147_partial",
    "Props.CertKey.C147_key",
    "Props.CertKey.C147_refused",
    "Props.CertKey.C147_accepts",
    "Props.CertKey.C147_memory",
    "Props.CertKey.C147_curve"
   ],
   "note": "Proved but for the curve: an ECDSA key in a certificate may be on another curve than that of the negotiated algorithm (C147_curve)."
  },
  {
   "property": "C148",
   "status": "proved",
   "theorems": [
    "Props.SshdSetup.C148",
    "Props.SshdSetup.C148_holds",
    "Props.SshdSetup.C148_types",
    "Props.SshdSetup.C148_detect",
    "Props.SshdSetup.C148_nothing"
   ],
   "note": "Whether a file passes the checks is an input here; the checks are those of C89. Where certificates of OpenSSH are supported, any file of authorities that is not empty is left to these."
  },
  {
   "property": "C149",
   "status": "partial",
   "theorems": [
    "Props.SshdSetup.C149_memory",
    "Props.SshdSetup.C149_partial",
    "Props.SshdSetup.C149_short"
   ],
   "note": "Proved but for a key file that becomes shorter while it is read (or has 2^32 bytes): what was read is freed without being zeroed (C149_short)."
  },
  {
   "property": "C150",
   "status": "partial",
   "theorems": [
    "Props.SshdPid.C150_unsafe",
    "Props.SshdPid.C150_partial",
    "Props.SshdPid.C150_written",
    "Props.SshdPid.C150_closed",
    "Props.SshdPid.C150_empty"
   ],
   "note": "Proved but for new files that cannot be examined or belong to another user, of which an empty file is left (C150_empty), and a failing unlink. Nobody else changes the directory meanwhile."
  },
  {
   "property": "C151",
   "status": "proved",
   "theorems": [
    "Props.ReadCert.C151",
    "Props.ReadCert.C151_read",
    "Props.ReadCert.C151_failed",
    "Props.ReadCert.C151_safe",
    "Props.ReadCert.C151_trusted"
   ],
   "note": "That all are read is for inputs of less than 1.4 GB and given memory; that nothing is written outside of a buffer, for inputs shorter than 2^32 - 1 bytes. The decoders and the parser of the certificate are parameters."
  },
  {
   "property": "C152",
   "status": "partial",
   "theorems": [
    "Props.ReadCert.C152_partial",
    "Props.ReadCert.C152_tab"
   ],
   "note": "Proved for lines whose first word has no tab and no carriage return; with one, the type is reported as unknown (C152_tab)."
  },
  {
   "property": "C153",
   "status": "proved",
   "theorems": [
    "Props.IdentKey.C153",
    "Props.IdentKey.C153_unique"
   ],
   "note": "What the decoders of wolfCrypt answer is an input."
  },
  {
   "property": "C154",
   "status": "proved",
   "theorems": [
    "Props.IdentKey.C154"
   ],
   "note": "A failing initialisation leaves nothing to free; what the functions of wolfCrypt do inside of their objects is not modelled."
  },
  {
   "property": "C155",
   "status": "partial",
   "theorems": [
    "Props.ReadFile.C155_partial",
    "Props.ReadFile.C155_cert_partial",
    "Props.ReadFile.C155_whole",
    "Props.ReadFile.C155_form",
    "Props.ReadFile.C155_large"
   ],
   "note": "Proved for files shorter than 4 GB; of larger ones a part may be taken for the whole file (C155_large)."
  },
  {
   "property": "C156",
   "status": "proved",
   "theorems": [
    "Props.ReadFile.C156",
    "Props.ReadFile.C156_cert"
   ],
   "note": "fread gives no more than it is asked for."
  },
  {
   "property": "C157",
   "status": "proved",
   "theorems": [
    "Props.IdentCert.C157",
    "Props.IdentCert.C157_memory"
   ],
   "note": "What the decoders of wolfCrypt answer is an input."
  }
 ]
}