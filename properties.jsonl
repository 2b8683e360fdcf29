{"id": "C01", "title": "Wire field readers stay in bounds", "statement": "Every primitive that takes a field out of a received SSH message (boolean, uint32, length, skip, string, string copy, mpint) reads only bytes inside the message, and either fails leaving the cursor usable or succeeds with the cursor advanced by exactly the field's encoded size and still not past the end of the message.", "quantifier": "every message content, every claimed length not larger than the memory behind it, every starting cursor, including cursors past the end and length prefixes up to 2^32-1", "why_tests_cant": "the interesting cases are length prefixes near 2^32 and cursors near the end; the input space is unbounded and a single wrapped addition is an out-of-bounds read that a sampled test need not hit", "anchors": ["src/internal.c:GetBoolean", "src/internal.c:GetUint32", "src/internal.c:GetSize", "src/internal.c:GetSkip", "src/internal.c:GetMpint", "src/internal.c:GetString", "src/internal.c:GetStringAlloc", "src/internal.c:GetStringRef"]}
{"id": "C02", "title": "Wire encoding round trip", "statement": "A value written to the wire in SSH encoding (boolean, uint32, string, mpint) is read back by the matching reader as the same value, wherever the field sits in a message and whatever follows it.", "quantifier": "every value, every string up to the 32-bit limit, every surrounding message", "why_tests_cant": "equality must hold for every value and position; tests check a handful of literals", "anchors": ["src/internal.c:GetUint32", "src/internal.c:GetStringRef", "src/internal.c:GetMpint", "src/misc.c:c32toa", "src/misc.c:ato32"]}
{"id": "C03", "title": "mpint normalisation is canonical", "statement": "Turning a big-endian unsigned number into an SSH mpint keeps its value, has no redundant leading zero byte, and never looks negative, so both peers hash the same bytes for the same number.", "quantifier": "every non-empty big-endian byte string, including all-zero and leading-zero ones", "why_tests_cant": "exchange hashes of the two sides agree only if the encoding is a function of the number; failures occur with probability 2^-8 or less per exchange", "anchors": ["src/internal.c:CreateMpint"]}
{"id": "C04", "title": "Peer name-lists are parsed faithfully and within limits", "statement": "Parsing a peer's algorithm name-list never reads outside the field, never stores more entries than the caller has room for, rejects a list over the configured byte or name limits, and otherwise yields the identifiers of the supported names in the order the peer gave them.", "quantifier": "every byte string as list, every capacity", "why_tests_cant": "adversarial lists (no commas, only commas, thousands of names) cannot be enumerated", "anchors": ["src/internal.c:GetNameListRaw", "src/internal.c:GetNameList"]}
{"id": "C05", "title": "Algorithm list setters accept only usable lists", "statement": "An algorithm list set through the API is accepted only if it is well formed, every supported name in it belongs to that category, and at least one usable algorithm remains; 'none' is never accepted as a cipher, MAC, or host key in a default build.", "quantifier": "every configuration string and every category", "why_tests_cant": "the accepted strings form an infinite language; one accepted 'none' disables encryption", "anchors": ["src/internal.c:CheckAlgoList", "src/ssh.c:wolfSSH_CTX_SetAlgoListCipher"]}
{"id": "C06", "title": "Algorithm negotiation picks the client's first common choice", "statement": "When the two sides' lists share a supported algorithm, negotiation of that category picks the first entry of the client's list that the server also offers, whichever side runs the code; when they share none the connection is refused.", "quantifier": "every pair of client and server algorithm lists, both roles", "why_tests_cant": "both peers must agree for every pair of lists; a mismatch is a downgrade or interoperability failure only visible for particular list pairs", "anchors": ["src/internal.c:MatchIdLists", "src/internal.c:DoKexInit", "src/internal.c:GetNameListRaw"]}
{"id": "C07", "title": "A wrong key-exchange guess drops exactly one message", "statement": "If the peer announced a guessed key-exchange packet and its guess does not match the negotiated algorithms, exactly the next key-exchange packet is ignored; with a right guess or no announcement none is ignored.", "quantifier": "every pair of algorithm lists and every value of the follow flag", "why_tests_cant": "depends on the cross product of both peers' preferences", "anchors": ["src/internal.c:DoKexInit", "src/internal.c:SkipGuessedKexMsg"]}
{"id": "C08", "title": "Server processes no connection message before authentication", "statement": "A server session never acts on a connection-protocol message (global request, channel open, channel data, ... id 80 and above) before it has told the client that authentication succeeded.", "quantifier": "every sequence of messages a client can send, in every order, and every interleaving with transport back-pressure", "why_tests_cant": "an attacker chooses the order; the property is over all histories", "anchors": ["src/internal.c:IsMessageAllowedServer", "src/internal.c:DoPacket", "src/ssh.c:wolfSSH_accept"]}
{"id": "C09", "title": "Client processes no out-of-phase message", "statement": "A client session never acts on a message only a client may send, never acts on a connection-protocol message before its authentication was accepted, and never acts on an authentication message before it asked for the service or after it was accepted.", "quantifier": "every sequence of messages a server can send", "why_tests_cant": "a malicious server chooses the order; property over all histories", "anchors": ["src/internal.c:IsMessageAllowedClient", "src/internal.c:DoPacket"]}
{"id": "C10", "title": "Key exchange accepts only the expected message", "statement": "While a key exchange is in progress, transport key-exchange messages are processed only when they are the one expected next; a second KEXINIT is refused, and outside a key exchange only KEXINIT is accepted.", "quantifier": "every message identifier in every keying state, every history", "why_tests_cant": "state-machine confusion attacks are sequences, not single inputs", "anchors": ["src/internal.c:IsMessageAllowedServer", "src/internal.c:IsMessageAllowedClient"]}
{"id": "C11", "title": "A server session is authenticated only by an accepted credential", "statement": "wolfSSH_accept gets past user authentication only if, in that session, some authentication request was accepted by the application's callback (and, for public keys, carried a signature that verified).", "quantifier": "every history of client messages, callback answers and transport back-pressure events", "why_tests_cant": "authentication bypass is a property over all interleavings of messages, retries and write stalls", "anchors": ["src/ssh.c:wolfSSH_accept", "src/internal.c:DoUserAuthRequest", "src/internal.c:DoUserAuthRequestPublicKey", "src/internal.c:DoUserAuthRequestPassword"]}
{"id": "C12", "title": "A public key offer without a valid signature never authenticates", "statement": "A public-key authentication request without a signature is only answered with 'key acceptable' or failure; one with a signature authenticates only if the signature verifies over this session's identifier followed by the request bytes up to the signature.", "quantifier": "every public key request body, every callback answer", "why_tests_cant": "the request is attacker-chosen bytes", "anchors": ["src/internal.c:DoUserAuthRequestPublicKey"]}
{"id": "C13", "title": "Failed authentication attempts are capped", "statement": "However authentication requests are ordered and mixed, a server session answers at most the configured number of failed attempts before it disconnects with an authentication error (an opening request of method 'none', by which a client asks for the list of methods, is not an attempt).", "quantifier": "every sequence of authentication requests and callback results, every configured cap", "why_tests_cant": "the bound is over histories of unbounded length", "anchors": ["src/internal.c:CountUserAuthFailure", "src/internal.c:SendUserAuthFailureCount", "src/internal.c:DoUserAuthRequest", "src/ssh.c:wolfSSH_SetMaxAuthAttempts"]}
{"id": "C14", "title": "User name cannot change during authentication", "statement": "Once a client has named a user in an authentication request, every later request of that session is for the same user or is refused, so the user the application sees is the one that was authenticated.", "quantifier": "every history of authentication requests", "why_tests_cant": "needs quantification over all request sequences", "anchors": ["src/internal.c:DoUserAuthRequest"]}
{"id": "C15", "title": "Channel identifiers are unique", "statement": "At any moment all open channels of a session have distinct local identifiers, and looking a channel up by its local identifier finds that channel.", "quantifier": "every sequence of channel opens and closes, including after the 32-bit identifier counter wraps", "why_tests_cant": "the wrap case needs 2^32 opens", "anchors": ["src/internal.c:ChannelNew", "src/internal.c:ChannelAppend", "src/internal.c:ChannelRemove", "src/internal.c:ChannelFind"]}
{"id": "C16", "title": "A peer cannot overrun the receive window", "statement": "Channel data beyond the window this side advertised is refused without being stored, and the bytes stored for a channel never exceed the channel's buffer.", "quantifier": "every sequence of data, stderr data, reads and window credits", "why_tests_cant": "overflow depends on cumulative history", "anchors": ["src/internal.c:ChannelPutData", "src/internal.c:DoChannelData", "src/internal.c:DoChannelExtendedData"]}
{"id": "C17", "title": "Channel reads return the sent bytes in order", "statement": "The bytes returned by the channel read functions are, concatenated, a prefix of the bytes accepted from the peer on that channel; nothing is lost, repeated, reordered or taken from another channel.", "quantifier": "every interleaving of received packets, reads of any size, window updates, rekeys and write stalls", "why_tests_cant": "buffer compaction happens at data-dependent points of an unbounded history", "anchors": ["src/ssh.c:wolfSSH_stream_read", "src/ssh.c:wolfSSH_ChannelRead", "src/ssh.c:_UpdateChannelWindow", "src/internal.c:ChannelPutData"]}
{"id": "C18", "title": "Receive window credit is conserved", "statement": "For every channel, window still open to the peer plus bytes buffered plus bytes read but not yet credited always equals the initial window, and the credit sent to the peer plus the credit parked equals what the local window was raised by: credit is never granted twice, and never lost unless the 32-bit counter of parked credit is full (after 2^32 bytes).", "quantifier": "every interleaving of data, stderr, reads, rekeys, write stalls and send failures", "why_tests_cant": "drift of one byte per rekey is invisible to short tests and fatal to long sessions", "anchors": ["src/internal.c:ChannelCreditWindow", "src/internal.c:SendPendingChannelWindowAdjust", "src/ssh.c:_UpdateChannelWindow", "src/ssh.c:_ChannelReadExt"]}
{"id": "C19", "title": "Sender never exceeds the peer's window or packet limit", "statement": "Over the life of a channel the data bytes sent never exceed the window the peer has granted, and no single data message exceeds the peer's maximum packet size.", "quantifier": "every sequence of sends of any size and window adjustments", "why_tests_cant": "cumulative property over unbounded histories", "anchors": ["src/internal.c:SendChannelData", "src/internal.c:SendChannelExtendedData", "src/internal.c:DoChannelWindowAdjust"]}
{"id": "C20", "title": "No channel data follows end-of-file", "statement": "After this side has queued EOF on a channel, no data message for that channel is queued.", "quantifier": "every interleaving of sends, EOF, close, retries and write stalls", "why_tests_cant": "depends on transport back-pressure timing", "anchors": ["src/internal.c:SendChannelEof", "src/internal.c:SendChannelData", "src/internal.c:SendChannelClose"]}
{"id": "C21", "title": "A reader that drains a channel never starves the peer", "statement": "When the application has read everything the peer sent on a channel, the peer has been granted a non-zero window, so the transfer can go on.", "quantifier": "every history of packets and read sizes", "why_tests_cant": "a deadlock needs a particular coincidence of window, buffer and read sizes", "anchors": ["src/ssh.c:wolfSSH_stream_read", "src/ssh.c:_UpdateChannelWindow", "src/ssh.c:_ChannelRead"]}
{"id": "C22", "title": "Window adjustment cannot overflow", "statement": "A window adjustment that would take the send window past 2^32-1 is refused and leaves the window as it was; otherwise the window grows by exactly the given amount.", "quantifier": "every current window and every adjustment", "why_tests_cant": "boundary at 2^32", "anchors": ["src/internal.c:DoChannelWindowAdjust"]}
{"id": "C23", "title": "Output byte stream is independent of write stalls", "statement": "The bytes handed to the transport are exactly the queued packets in order, each byte once, however the transport splits, delays or stalls writes.", "quantifier": "every sequence of queued packets and every sequence of transport write results", "why_tests_cant": "partial writes have unboundedly many schedules", "anchors": ["src/internal.c:wolfSSH_SendPacket", "src/internal.c:PreparePacket", "src/internal.c:GrowBuffer", "src/internal.c:ShrinkBuffer"]}
{"id": "C24", "title": "Emitted packets are well formed", "statement": "Every packet this side emits has between 4 and 255 bytes of padding, a length field matching its contents, and a total encrypted size that is a multiple of the cipher block size and at least the minimum.", "quantifier": "every payload size and every negotiated cipher and MAC", "why_tests_cant": "arithmetic property over all payload sizes", "anchors": ["src/internal.c:PreparePacket", "src/internal.c:BundlePacket"]}
{"id": "C25", "title": "Packet framing round trip", "statement": "A packet built by this code and received by this code delivers exactly the payload that was put in, under every cipher mode.", "quantifier": "every payload and every cipher mode", "why_tests_cant": "quantifies over all payloads and sizes", "anchors": ["src/internal.c:BundlePacket", "src/internal.c:DoReceive", "src/internal.c:DoPacket"]}
{"id": "C26", "title": "Receiving is independent of transport segmentation", "statement": "The sequence of messages processed depends only on the byte stream received, not on how the transport cuts it into reads.", "quantifier": "every byte stream and every way of cutting it", "why_tests_cant": "exponentially many segmentations", "anchors": ["src/internal.c:GetInputData", "src/internal.c:GetInputLine", "src/internal.c:DoReceive", "src/internal.c:DoProtoId"]}
{"id": "C27", "title": "No unauthenticated packet is acted upon", "statement": "Once keys are in use, the contents of a packet are acted upon only if the integrity check of exactly those contents under the current sequence number succeeded.", "quantifier": "every byte stream from the network and every retry by the application", "why_tests_cant": "attacker-chosen bytes and retry schedules", "anchors": ["src/internal.c:DoReceive", "src/internal.c:VerifyMac", "src/internal.c:DecryptAead", "src/internal.c:DoPacket"]}
{"id": "C28", "title": "Sequence numbers advance by one per packet", "statement": "The send and receive sequence numbers count packets modulo 2^32, across rekeys, so both ends agree on the number of each packet.", "quantifier": "every history of packets sent, received and rekeys", "why_tests_cant": "wrap and rekey interleavings are out of reach of tests", "anchors": ["src/internal.c:BundlePacket", "src/internal.c:DoPacket"]}
{"id": "C29", "title": "AEAD nonces do not repeat under one key", "statement": "Under one AEAD key, each packet uses a different nonce, for any number of packets up to 2^64; sender and receiver use the same nonce for the same packet.", "quantifier": "every packet count and every initial nonce", "why_tests_cant": "nonce reuse shows only after many packets or at carry boundaries", "anchors": ["src/internal.c:AeadIncrementExpIv", "src/internal.c:EncryptAead", "src/internal.c:DecryptAead"]}
{"id": "C30", "title": "The highwater callback fires once per key epoch per limit", "statement": "When the amount of data or number of packets under the current keys reaches a configured limit the highwater callback is called, once per limit, until new keys are in use.", "quantifier": "every sequence of packets and every limit", "why_tests_cant": "limits are up to 2^32 and histories unbounded", "anchors": ["src/internal.c:HighwaterCheck", "src/internal.c:DoNewKeys", "src/internal.c:SendNewKeys"]}
{"id": "C31", "title": "No channel traffic is sent during a rekey", "statement": "While a key exchange is in progress this side queues no channel data, stderr data, EOF or window adjustment; window credit that falls due is sent after the exchange completes.", "quantifier": "every interleaving of application calls with a key exchange", "why_tests_cant": "race between application calls and rekey", "anchors": ["src/internal.c:SendChannelData", "src/internal.c:SendChannelWindowAdjust", "src/internal.c:ChannelCreditWindow"]}
{"id": "C32", "title": "Group-exchange group selection respects the request", "statement": "A group chosen by the server lies within the client's requested range, the floor of 2048 bits and the sizes the build has room for, is the smallest such group at least the preferred size if there is one and else the largest; if none fits the exchange fails. Client and server then compute with the same group and hash the same request and group.", "quantifier": "every (min, preferred, max) triple", "why_tests_cant": "three 32-bit inputs", "anchors": ["src/internal.c:SelectKexDhGexGroup"]}
{"id": "C33", "title": "Key derivation follows the RFC for every length", "statement": "A derived key of any length is the leading part of K1||K2||..., with K1 = HASH(K||H||letter||session) and K(i+1) = HASH(K||H||K1||...||Ki), K encoded as an mpint, and the six letters go to the right direction on both sides.", "quantifier": "every hash, secret, exchange hash, session id and requested length", "why_tests_cant": "quantifies over lengths and secrets", "anchors": ["src/internal.c:GenerateKey", "src/internal.c:GenerateKeys"]}
{"id": "C34", "title": "Resolved paths are absolute and free of dot-dot", "statement": "Resolving a client-supplied path against an absolute default directory yields an absolute path within the output buffer without '.', '..' or empty components, equal to the lexical resolution of the components.", "quantifier": "every path string, default path and buffer size", "why_tests_cant": "path traversal inputs are unbounded", "anchors": ["src/ssh.c:wolfSSH_RealPath"]}
{"id": "C35", "title": "Path cleaning removes every dot-dot component", "statement": "Cleaning an absolute path leaves no '..' component and no doubled delimiter, never grows the path, terminates, and never reads or writes outside its buffer.", "quantifier": "every path string", "why_tests_cant": "the cleaning loop rewrites in place; inputs are unbounded", "anchors": ["src/internal.c:wolfSSH_CleanPath"]}
{"id": "C36", "title": "Channel open requests are refused unless permitted", "statement": "A peer's channel open is confirmed only for a type this side supports in its role, with at most one session channel opened by the peer, and with forwarding only if the application installed and its callback accepted the forward; every refused request is answered with a failure and creates no channel.", "quantifier": "every open request in every session state and every callback answer", "why_tests_cant": "decision logic over all states", "anchors": ["src/internal.c:DoChannelOpen", "src/internal.c:DoChannelOpenForward"]}
{"id": "C37", "title": "Remote forwarding requests fail closed", "statement": "A tcpip-forward or cancel request succeeds only if the application installed a forwarding callback and it accepted; otherwise the peer gets a failure if it asked for a reply, and exactly one reply is sent per request that wants one.", "quantifier": "every request body and callback answer", "why_tests_cant": "decision logic over all inputs", "anchors": ["src/internal.c:DoGlobalRequestFwd", "src/internal.c:DoGlobalRequest"]}
{"id": "C38", "title": "Internal byte buffers never lose or duplicate unread bytes", "statement": "Growing, appending to and shrinking the library's byte buffers preserves the unread bytes, keeps the cursor within the length and the length within the allocation, for all sizes and without 32-bit wrap.", "quantifier": "every sequence of operations and sizes", "why_tests_cant": "sizes and histories unbounded", "anchors": ["src/internal.c:GrowBuffer", "src/internal.c:ShrinkBuffer", "src/internal.c:AppendBuffer", "src/internal.c:BufferInit"]}
{"id": "C39", "title": "Version exchange accepts only SSH-2.0 peers, within bounds", "statement": "A peer is accepted only if it presents a line starting with 'SSH-2.0-' of at most 255 bytes; a server accepts no preceding line, a client at most ten; the identification saved for the exchange hash is that line without its terminator.", "quantifier": "every byte stream from the peer", "why_tests_cant": "unbounded input language", "anchors": ["src/internal.c:DoProtoId", "src/internal.c:GetInputLine"]}
{"id": "C40", "title": "64-bit offsets and octal modes are computed exactly", "statement": "The 64-bit file offset kept as two 32-bit words equals the true sum as long as it is below 2^64, and octal mode strings convert to their value.", "quantifier": "every pair of words and addend; every octal string up to the permitted length", "why_tests_cant": "carry boundary at 2^32", "anchors": ["src/internal.c:AddAssign64", "src/internal.c:wolfSSH_oct2dec"]}
{"id": "C41", "title": "Keyboard answers reach the application only in reply to a question", "statement": "A server shows keyboard-interactive answers to the application only if it has sent an information request in this exchange, and only as many answers as prompts were sent.", "quantifier": "every session state and every information response", "why_tests_cant": "a response can arrive in any state and with any count", "anchors": ["src/internal.c:DoUserAuthInfoResponse", "src/internal.c:SendUserAuthKeyboardRequest", "src/internal.c:DoUserAuthRequest"]}
{"id": "C42", "title": "Service and authentication messages are read within their packet", "statement": "Whatever service request, authentication request or information response a client sends, in any state of the session, the server reads only bytes of that packet.", "quantifier": "every session state, every packet, every application answer", "why_tests_cant": "unbounded input space; an over-read need not be visible in a test", "anchors": ["src/internal.c:DoServiceRequest", "src/internal.c:DoUserAuthRequest", "src/internal.c:DoUserAuthInfoResponse", "src/internal.c:DoUserAuthRequestPublicKey", "src/internal.c:DoPacket"]}
{"id": "C43", "title": "Exiting a channel ends that channel", "statement": "A successful wolfSSH_ChannelExit on a channel announces EOF and close for that channel to the peer and removes that channel and no other from the session.", "quantifier": "every set of open channels, confirmed or not, with any numbers chosen by the peer", "why_tests_cant": "depends on which numbers the peer chooses and on how many channels are open", "anchors": ["src/ssh.c:wolfSSH_ChannelExit", "src/internal.c:SendChannelEof", "src/internal.c:SendChannelClose", "src/internal.c:ChannelRemove"]}
{"id": "C44", "title": "Shutdown closes the session channel", "statement": "wolfSSH_shutdown on a session whose first channel has not been closed announces EOF, exit status and close for it, if packets can be sent.", "quantifier": "every session state and every choice of channel numbers by the peer", "why_tests_cant": "the numbers are chosen by two sides; tests use the same number on both", "anchors": ["src/ssh.c:wolfSSH_shutdown"]}
{"id": "C45", "title": "Channel messages and calls stay within their buffers", "statement": "Whatever channel messages the peer sends, whatever the application calls and whichever sends fail, handling a step ends and neither reads nor writes outside the packet and the channel's buffers.", "quantifier": "every history of a session, every packet, every callback answer, every transport answer", "why_tests_cant": "unbounded input space; an over-read need not be visible in a test", "anchors": ["src/internal.c:DoChannelData", "src/internal.c:DoChannelExtendedData", "src/internal.c:DoChannelOpen", "src/internal.c:ChannelPutData", "src/ssh.c:_UpdateChannelWindow", "src/ssh.c:_ChannelReadExt"]}
{"id": "C46", "title": "A client takes only a sound group from the server", "statement": "A client goes on with a group exchange only if the prime the server sent is odd, has between max(min, 2048) and max bits as requested, passes the primality test together with (p-1)/2, and the generator lies in 2..p-2; every message is read within the packet.", "quantifier": "every group message, every request, every answer of the primality test", "why_tests_cant": "the group is chosen by a possibly hostile server", "anchors": ["src/internal.c:DoKexDhGexGroup", "src/internal.c:ValidateKexDhGexGroup", "src/internal.c:SendKexDhGexRequest"]}
{"id": "C47", "title": "The exchange hash covers the whole negotiation", "statement": "The hash the server signs and the client checks is the hash of both identification strings, both SSH_MSG_KEXINIT messages, the host key in the reply, the group exchange values if any, the client's public value, the server's public value and the shared secret, each with its length, in the order of the RFCs; the reply carries exactly that host key, public value and signature.", "quantifier": "every key exchange message, every key exchange method, host key and state of the session", "why_tests_cant": "both sides could agree on a wrong hash and every self test would pass", "anchors": ["src/internal.c:DoKexInit", "src/internal.c:DoKexDhInit", "src/internal.c:SendKexDhReply", "src/internal.c:SendKexGetSigningKey", "src/internal.c:DoKexDhReply"]}
{"id": "C48", "title": "A client takes new keys into use only from an authenticated server", "statement": "A client derives keys and goes on to SSH_MSG_NEWKEYS only if its public key check callback accepted the host key in the reply and the signature in the reply verifies, under that key and the negotiated signature algorithm, over the exchange hash; without a callback it never does. Reading the reply stays within the packet.", "quantifier": "every reply of the server, every state of the session, every answer of callback and library", "why_tests_cant": "the reply comes from a possibly hostile peer", "anchors": ["src/internal.c:DoKexDhReply", "src/internal.c:ParsePubKey", "src/internal.c:ParseRSAPubKey", "src/internal.c:ParseECCPubKey"]}
{"id": "C49", "title": "The session identifier is the first exchange hash and never changes", "statement": "The session identifier is set once, to the first exchange hash computed, and stays the same through every later key exchange, however it ends.", "quantifier": "every history of key exchange messages", "why_tests_cant": "histories are unbounded", "anchors": ["src/internal.c:DoKexDhReply", "src/internal.c:SendKexDhReply"]}
{"id": "C50", "title": "A client and a server complete a key exchange and agree", "statement": "When both negotiated the same algorithms and the cryptographic library works, the server's handling of the client's message yields a reply the client accepts; then both hold the same exchange hash, the same session identifier and, for each direction, the same initial value, cipher key and MAC key.", "quantifier": "all key exchange methods, host key kinds, keys, secrets and surrounding buffer contents", "why_tests_cant": "leading zero bytes and high bits of secrets and keys occur with small probability in tests", "anchors": ["src/internal.c:SendKexDhInit", "src/internal.c:DoKexDhInit", "src/internal.c:SendKexDhReply", "src/internal.c:DoKexDhReply", "src/internal.c:GenerateKeys"]}
{"id": "C51", "title": "Tampering with the negotiation is detected", "statement": "If a client completes the exchange with the hash a server signed, both saw the same identification strings and the same SSH_MSG_KEXINIT messages, unless the hash function collides.", "quantifier": "every pair of sessions and everything a third party may do in between", "why_tests_cant": "quantifies over every attacker", "anchors": ["src/internal.c:DoKexInit", "src/internal.c:DoKexDhReply", "src/internal.c:SendKexDhReply"]}
{"id": "C52", "title": "SFTP requests stay inside the jail", "statement": "With a confinement directory set, a path in a request is passed to the file system only if its lexical resolution (from the start directory if relative) is the confinement directory or below and, unless that is '/', no component below it, nor the object itself, is a symbolic link; the operation then gets exactly the resolved path, which leads below the place the confinement directory leads to. Confined requests that fit are not refused.", "quantifier": "every path in a request, start directory, confinement directory and content of the file system", "why_tests_cant": "path traversal inputs are unbounded", "anchors": ["src/wolfsftp.c:GetAndCleanPath", "src/ssh.c:wolfSSH_RealPath"]}
{"id": "C53", "title": "The configured SFTP directories are stored in canonical form", "statement": "wolfSSH_SFTP_SetConfinePath and wolfSSH_SFTP_SetDefaultPath store the lexical resolution of the path they get, from the working directory if it is relative: an absolute path without '.', '..' or empty components; if the working directory is not known nothing is stored.", "quantifier": "every path and working directory", "why_tests_cant": "path inputs are unbounded", "anchors": ["src/wolfsftp.c:CanonicalizePath", "src/wolfsftp.c:wolfSSH_SFTP_SetConfinePath", "src/wolfsftp.c:wolfSSH_SFTP_SetDefaultPath"]}
{"id": "C54", "title": "Channel requests are answered once, on their channel, and do what they say", "statement": "A channel request that wants a reply (and whose type has one) gets exactly one, addressed to the peer's number of the channel it names: success exactly if it is well-formed, of a known type and not refused by the application. The session type, command, terminal size, modes, exit status and agent use afterwards are those the request carried, other channels are unaffected; a request for no open channel has no effect; a malformed one is never accepted and does not reach the application; at most one program start succeeds per channel.", "quantifier": "every message, session, build option and callback answer", "why_tests_cant": "inputs are unbounded; interaction of parse errors, callbacks and replies", "anchors": ["src/internal.c:DoChannelRequest", "src/internal.c:SendChannelSuccess", "src/internal.c:ChannelRequestIs"]}
{"id": "C55", "title": "SFTP requests are handled safely and answered in the protocol", "statement": "Whatever requests an SFTP session had and whatever bytes the next request consists of, the server reads and writes within its buffers, comes to an end, and sends nothing or exactly one packet; the packet has the id of the request, parses as one reply, and that reply is a status or of the kind the request asks for.", "quantifier": "every history of requests, every request body, every answer of the file system and every allocation failure", "why_tests_cant": "request bodies are hostile and unbounded", "anchors": ["src/wolfsftp.c:wolfSSH_SFTP_read", "src/wolfsftp.c:wolfSSH_SFTP_RecvOpen", "src/wolfsftp.c:wolfSSH_SFTP_RecvReadDir"]}
{"id": "C56", "title": "SFTP replies tell what happened", "statement": "A reply of success means that the file system call the request asks for was made, with the path or descriptor of the request, and succeeded; a failure status that it was not made or failed; attributes in a reply are the ones the file system delivered.", "quantifier": "every request, session state and file system answer", "why_tests_cant": "errors of the file system are hard to provoke; the space of requests is unbounded", "anchors": ["src/wolfsftp.c:wolfSSH_SFTP_RecvRMDIR", "src/wolfsftp.c:wolfSSH_SFTP_RecvRename", "src/wolfsftp.c:wolfSSH_SFTP_RecvSetSTAT", "src/wolfsftp.c:SFTP_SetFileAttributes"]}
{"id": "C57", "title": "SFTP handles", "statement": "No handle is given twice in a session; a handle that was closed stands for nothing ever after; requests only reach descriptors opened for a handle that is not closed; what was opened is closed or open for a handle, at most 64 files at a time.", "quantifier": "every history of requests", "why_tests_cant": "histories are unbounded", "anchors": ["src/wolfsftp.c:SFTP_AddFileHandle", "src/wolfsftp.c:SFTP_FindFileHandle", "src/wolfsftp.c:SFTP_RemoveFileHandle", "src/wolfsftp.c:wolfSSH_SFTP_RecvClose"]}
{"id": "C58", "title": "An SFTP session never touches anything outside its jail", "statement": "Whatever requests a session with a confinement directory had, every path that was passed to the file system is canonical and at or below that directory, with no symbolic link on the way.", "quantifier": "every history of requests and every file system content", "why_tests_cant": "path inputs and histories are unbounded", "anchors": ["src/wolfsftp.c:GetAndCleanPath", "src/wolfsftp.c:wolfSSH_SFTP_RecvReadDir", "src/wolfsftp.c:wolfSSH_SFTPNAME_readdir"]}
{"id": "C59", "title": "SFTP reads and writes go to the right place", "statement": "A WRITE changes only the file of its handle, stores a prefix of the data at the offset of the request, and is answered OK exactly if all the data was stored; a READ delivers the bytes one read at the offset returns, and end-of-file exactly if there are none.", "quantifier": "every handle, offset (64 bits), length, data, and every short write", "why_tests_cant": "short writes and large offsets do not occur in tests", "anchors": ["src/wolfsftp.c:wolfSSH_SFTP_RecvWrite", "src/wolfsftp.c:wolfSSH_SFTP_RecvRead"]}
{"id": "C60", "title": "SFTP clients cannot set special mode bits; OPEN does what its flags say", "statement": "No request gives a file or directory mode bits beyond the nine permission bits. OPEN opens a regular file or creates one, with exactly the access and flags of the request, and gives a fresh handle for it.", "quantifier": "every history of requests, every flag word and attribute block", "why_tests_cant": "the flag and mode space is large", "anchors": ["src/wolfsftp.c:wolfSSH_SFTP_RecvOpen", "src/wolfsftp.c:wolfSSH_SFTP_RecvMKDIR", "src/wolfsftp.c:SFTP_SetFileAttributes"]}
{"id": "C61", "title": "SFTP directory listings are complete", "statement": "The replies to READDIR on an open directory together list every entry the file system delivers, once, with its attributes, and then report the end.", "quantifier": "every directory content, every history of requests", "why_tests_cant": "directory contents are unbounded", "anchors": ["src/wolfsftp.c:wolfSSH_SFTP_RecvReadDir", "src/wolfsftp.c:wolfSSH_SFTPNAME_readdir"]}
{"id": "C62", "title": "Data a send call reports as accepted is queued", "statement": "If wolfSSH_stream_send, wolfSSH_ChannelSend or wolfSSH_extended_data_send reports n bytes as sent, exactly the first n bytes were queued for the peer on that channel, charged to its window; if it reports an error other than one of the transport after queueing, nothing was queued.", "quantifier": "every history of a session, every answer of the transport", "why_tests_cant": "needs a transport that stalls at one particular of several flushes", "anchors": ["src/internal.c:SendChannelData", "src/internal.c:SendChannelExtendedData", "src/ssh.c:wolfSSH_stream_send"]}
{"id": "C63", "title": "The SFTP server works on the packets it is sent, each once, in order", "statement": "However the bytes of the client are cut into pieces and wherever the calls of wolfSSH_SFTP_read are interrupted by missing data, a full window, a stalled socket or a key exchange: the requests handled are the packets of the byte stream, in order, each exactly once, and the bytes sent are their replies, in order, without gap or repetition.", "quantifier": "every byte stream, every segmentation, every pattern of interruptions", "why_tests_cant": "the interleavings are unbounded", "anchors": ["src/wolfsftp.c:wolfSSH_SFTP_read", "src/wolfsftp.c:SFTP_GetHeader", "src/wolfsftp.c:wolfSSH_SFTP_buffer_read", "src/wolfsftp.c:wolfSSH_SFTP_buffer_send"]}
{"id": "C64", "title": "Every well-formed SFTP request gets a reply", "statement": "Every request whose body matches the grammar of its type is answered.", "quantifier": "every request and session state", "why_tests_cant": "request bodies are unbounded", "anchors": ["src/wolfsftp.c:wolfSSH_SFTP_RecvRead", "src/wolfsftp.c:wolfSSH_SFTP_RecvFSTAT", "src/wolfsftp.c:wolfSSH_SFTP_RecvReadDir"]}
{"id": "C65", "title": "SFTP replies leak no memory contents", "statement": "No byte of a reply, of a path or of a file system call depends on old contents of allocated memory or of the stack.", "quantifier": "every history of requests and all contents of memory", "why_tests_cant": "leaked bytes look plausible; tests run with fresh memory", "anchors": ["src/wolfsftp.c:wolfSSH_SFTP_RecvRead", "src/wolfsftp.c:wolfSSH_SFTP_CreateStatus"]}
{"id": "C66", "title": "The SFTP opening exchange", "statement": "wolfSSH_SFTP_accept reports completion only if the client's first packet is INIT for version 3 or higher; then exactly that packet with its extensions has been consumed and exactly one VERSION 3 packet has been sent, however often the call was interrupted.", "quantifier": "every byte stream, segmentation and pattern of interruptions", "why_tests_cant": "the interleavings are unbounded", "anchors": ["src/wolfsftp.c:wolfSSH_SFTP_accept", "src/wolfsftp.c:SFTP_ServerRecvInit", "src/wolfsftp.c:SFTP_ServerSendInit"]}
{"id": "C67", "title": "A client talks about the user only to a server it has checked", "statement": "A client asks for user authentication, sends an authentication request (user name, password, signature) or answers prompts only under keys of a key exchange whose host key the application's callback accepted and whose signature by that key was verified, and only after the server has put the keys of such an exchange in use too.", "quantifier": "every sequence of packets received, every sequence of API calls, every answer of callbacks, cryptography, memory and transport, including repeated calls of wolfSSH_connect after interruptions, and key re-exchange", "why_tests_cant": "the order of messages is up to a hostile server", "anchors": ["src/ssh.c:wolfSSH_connect", "src/internal.c:DoPacket", "src/internal.c:IsMessageAllowedClient", "src/internal.c:DoKexDhReply", "src/internal.c:SendUserAuthRequest"]}
{"id": "C68", "title": "Keys change in order", "statement": "On either side: every packet is sent and accepted under the keys last put in use for its direction; new keys are used for sending only right after own NEWKEYS, they were derived in a key exchange, are newer than all used before, and on a client belong to an accepted and verified host key; new keys are used for receiving only from the peer's NEWKEYS on, and are the ones already in use for sending.", "quantifier": "every sequence of packets received and API calls, every answer of the environment, any number of key exchanges", "why_tests_cant": "interleavings of rekeying with other traffic are unbounded", "anchors": ["src/internal.c:DoKexInit", "src/internal.c:SendNewKeys", "src/internal.c:DoNewKeys", "src/internal.c:DoKexDhReply", "src/internal.c:SendKexDhReply"]}
{"id": "C69", "title": "One KEXINIT for every key exchange", "statement": "KEXINIT and NEWKEYS are sent in turns: no second KEXINIT before own NEWKEYS, no NEWKEYS without KEXINIT before.", "quantifier": "every sequence of packets received and API calls, including wolfSSH_TriggerKeyExchange, and every firing of the highwater callback", "why_tests_cant": "needs a call or a byte count at one particular point of an exchange", "anchors": ["src/ssh.c:wolfSSH_TriggerKeyExchange", "src/internal.c:wsHighwater", "src/internal.c:SendKexInit", "src/internal.c:DoKexInit"]}
{"id": "C70", "title": "A key exchange begun by the peer is completed", "statement": "If the peer begins a key exchange and follows the protocol, the exchange completes: afterwards both directions use the keys of that exchange and nothing is left waiting.", "quantifier": "every point of a session at which the peer may begin, either side, both kinds of exchange", "why_tests_cant": "peers that rekey during the opening of a session are rare in tests", "anchors": ["src/internal.c:DoPacket", "src/internal.c:DoKexInit", "src/internal.c:IsMessageAllowedClient", "src/ssh.c:wolfSSH_connect"]}
{"id": "C71", "title": "SCP headers round-trip", "statement": "The text with which a file, a directory, times or the end of a directory is announced over SCP is understood by the receiving side as the same permissions, size, name and times.", "quantifier": "all modes, sizes below 4 GiB, 64-bit times, names of one path component that fit the message buffer, all contents of the receiver's memory", "why_tests_cant": "sizes and names are unbounded; off-by-one errors in digits show only for particular values", "anchors": ["src/wolfscp.c:SendScpFileHeader", "src/wolfscp.c:SendScpEnterDirectory", "src/wolfscp.c:SendScpTimestamp", "src/wolfscp.c:ReceiveScpMessage"]}
{"id": "C72", "title": "SCP messages are understood only as written", "statement": "Reading an SCP control message never leaves the message buffer. A file or directory is taken from a line exactly when the line is the letter, four octal digits, a separator, a decimal size below 2^32, a space and a plain name; times exactly when they are two decimal numbers below 2^64 in their places; every other line is refused.", "quantifier": "all byte strings a peer may send as a line, all contents of memory behind it", "why_tests_cant": "malformed lines are unbounded in number and the damage is in reads past the buffer", "anchors": ["src/wolfscp.c:ReceiveScpMessage", "src/wolfscp.c:GetScpFileMode", "src/wolfscp.c:GetScpFileSize", "src/wolfscp.c:GetScpFileName", "src/wolfscp.c:GetScpTimestamp"]}
{"id": "C73", "title": "SCP names handed to the application are plain", "statement": "Every file or directory name the receive callback is given is one path component: not empty, not '.' or '..', without '/', '\\\\' or NUL; the only other name is the destination the local user gave, and only for the first entry.", "quantifier": "all peers, all histories of reads, callbacks and confirmations", "why_tests_cant": "a hostile peer chooses the messages and their timing", "anchors": ["src/wolfscp.c:DoScpSink", "src/wolfscp.c:ReceiveScpMessage", "src/wolfscp.c:GetScpFileName", "src/wolfscp.c:ScpCheckForRename"]}
{"id": "C74", "title": "SCP receive callbacks come in order", "statement": "The receive callback is called with one request first; then each file is opened, handed over in consecutive pieces that together never exceed the announced size, and reported done exactly when all of it has been handed over, before the next entry begins.", "quantifier": "all peers, all pieces and schedules of data, all answers of the callback, failures at any point", "why_tests_cant": "depends on the interleaving of data arrival, short reads and callbacks", "anchors": ["src/wolfscp.c:DoScpSink", "src/wolfscp.c:ReceiveScpFile"]}
{"id": "C75", "title": "SCP delivers what the peer sends", "statement": "When a peer sends a tree of files over SCP and follows the protocol, the receiving application is given exactly these files and directories, with contents, permissions and times, whatever the pieces and the pace in which the data arrives; and the two sides never wait for each other.", "quantifier": "all trees of any depth and size, all ways to cut the data into pieces, all schedules", "why_tests_cant": "the number of ways to cut a stream is exponential; losses depend on timing", "anchors": ["src/wolfscp.c:DoScpSink", "src/wolfscp.c:ReceiveScpMessage", "src/wolfscp.c:ReceiveScpFile", "src/wolfscp.c:ReceiveScpConfirmation", "src/wolfscp.c:SendScpConfirmation"]}
{"id": "C76", "title": "A refused SCP transfer is over", "statement": "After the receive callback refuses (abort), the peer is sent an error and never a confirmation, and the callback is not called again; the peer is told of success only if the callback agreed.", "quantifier": "all histories, a refusal in any call", "why_tests_cant": "refusals in the middle of a transfer are rare in tests", "anchors": ["src/wolfscp.c:DoScpSink", "src/wolfscp.c:SendScpConfirmation"]}
{"id": "C77", "title": "Sending over SCP follows the protocol", "statement": "The sending side asks the application for entries and file contents in order and only when it has nothing else to do; it writes one header per entry with the announced name, permissions, size and times, exactly the bytes supplied and one zero byte after a whole file; and it waits for the peer's confirmation after every message and file.", "quantifier": "all answers of the application's callback, all partial writes and interruptions, all bytes of the peer", "why_tests_cant": "depends on the interleaving of short writes, callbacks and confirmations", "anchors": ["src/wolfscp.c:DoScpSource", "src/wolfscp.c:SendScpFileHeader", "src/wolfscp.c:SendScpEnterDirectory", "src/wolfscp.c:SendScpTimestamp", "src/wolfscp.c:SendScpFile", "src/wolfscp.c:ReceiveScpConfirmation"]}
{"id": "C78", "title": "An SCP copy between two sides is exact", "statement": "When one side sends over SCP what its callback supplies and the other side receives, the receiving application is given exactly the entries, contents, permissions and times that the sending application supplied.", "quantifier": "all trees, all pieces in which contents are supplied and carried, all schedules", "why_tests_cant": "needs both ends and every schedule between them", "anchors": ["src/wolfscp.c:DoScpSource", "src/wolfscp.c:DoScpSink"]}
{"id": "C79", "title": "The default SCP receiver stays below its destination", "statement": "Whatever a peer sends to the default receive callback, no file or directory that is not below the destination directory is created, changed or truncated, even if symbolic links were planted in the destination between the calls.", "quantifier": "all messages and contents of the peer, all failures of the file system, all changes by other processes between two calls", "why_tests_cant": "hostile names, links and orders of messages cannot be enumerated", "anchors": ["src/wolfscp.c:wsScpRecvCallback", "src/wolfscp.c:DoScpSink", "src/wolfscp.c:GetScpFileName"]}
{"id": "C80", "title": "What is copied over SCP is in the file system", "statement": "After a tree was sent to the default receive callback and all was confirmed, every file and directory of it is in its place below the destination, with its contents, permissions and times, and nothing else has changed.", "quantifier": "all trees, all pieces and schedules, all file systems in which the places are free or of the same kind", "why_tests_cant": "joins both protocol sides and the state of a file system over a whole history", "anchors": ["src/wolfscp.c:wsScpRecvCallback", "src/wolfscp.c:DoScpSink", "src/wolfscp.c:DoScpSource"]}
{"id": "C81", "title": "An SCP destination means what it says", "statement": "The path of an SCP copy is understood on the other side with the direction that was asked for; a destination path names the file to write, in the directory before it, or with a delimiter at the end the directory to write into; nothing is read outside the path.", "quantifier": "all paths", "why_tests_cant": "paths have too many forms to test: relative, doubled delimiters, dots, options inside", "anchors": ["src/wolfscp.c:ParseScpCommand", "src/wolfscp.c:ScpCheckForRename", "src/wolfscp.c:MakeScpCmd", "src/wolfscp.c:wolfSSH_SCP_from", "src/wolfscp.c:wolfSSH_SCP_to"]}
{"id": "C82", "title": "The default SCP sender sends what is in the file system", "statement": "A transfer with the default send callback that comes to its end has sent exactly the file or the tree that was asked for: every file with its name, permissions, times and contents, every directory with its entries, nothing twice and nothing else.", "quantifier": "all trees, all pieces in which files are read and sent, all schedules", "why_tests_cant": "trees, names and sizes cannot be enumerated, and the walk keeps its place in a fixed buffer", "anchors": ["src/wolfscp.c:wsScpSendCallback", "src/wolfscp.c:ScpProcessEntry", "src/wolfscp.c:ScpPushDir", "src/wolfscp.c:ScpPopDir", "src/wolfscp.c:FindNextDirEntry", "src/wolfscp.c:DoScpSource"]}
{"id": "C83", "title": "Certificates are read exactly", "statement": "A public key offered under the name of an OpenSSH certificate is taken for one exactly if it is, to the last byte, the encoding of a certificate of that family; every field read from it is the one encoded, a blob encodes one certificate only, and no blob makes the server read outside of it.", "quantifier": "all blobs of any length under every certificate name", "why_tests_cant": "malformed and ambiguous encodings cannot be enumerated", "anchors": ["src/ossh.c:OsshCertParse", "src/ossh.c:OsshSkipUserKey"]}
{"id": "C84", "title": "A certificate with restrictions that are not understood is refused", "statement": "The critical options of a certificate are accepted only if each is one the library understands, appears once, in order, with one non-empty value; the restrictions passed on are exactly these values.", "quantifier": "all option lists of any length", "why_tests_cant": "a single list that slips through lifts the restriction of the key", "anchors": ["src/ossh.c:OsshCertCheckOptions", "src/ossh.c:OsshNameCmp", "src/ossh.c:OsshNameEq"]}
{"id": "C85", "title": "A certificate counts only if its authority signed all of it", "statement": "The application is asked about a certified key only if the certificate is for users and carries a valid signature of the authority it names over everything else in it; it is asked about the plain key in the certificate, and the authority, principals, validity and restrictions it is shown are those signed. The client's signature is then checked with the certified key.", "quantifier": "all requests, all certificates, all states of the session", "why_tests_cant": "forgeries are combinations of fields that tests do not think of", "anchors": ["src/internal.c:DoUserAuthRequestPublicKey", "src/ossh.c:OsshCertVerifySignature", "src/ossh.c:OsshCertCheckType", "src/ossh.c:OsshVerifyRsa", "src/ossh.c:OsshVerifyEcc", "src/ossh.c:OsshVerifyEd25519"]}
{"id": "C86", "title": "Only listed keys are authorized", "statement": "wolfsshd authorizes a plain public key only if a line of the user's keys file lists it: a line that is no comment, with a key type name and this key. A listed key is found wherever it stands in the file.", "quantifier": "all files, all keys, all base64 decoders", "why_tests_cant": "files have arbitrary lines, comments, and lengths", "anchors": ["apps/wolfsshd/auth.c:CheckAuthKeysLine", "apps/wolfsshd/auth.c:SearchKeysFile"]}
{"id": "C87", "title": "Each user has the keys file the configuration names", "statement": "The keys file is the one the configured pattern stands for with the user's home directory and name; too long or unknown patterns authorize nobody; if the pattern mentions the user name, two users do not share a file.", "quantifier": "all patterns, home directories and user names", "why_tests_cant": "tokens combine with arbitrary names to arbitrary paths", "anchors": ["apps/wolfsshd/auth.c:ResolveAuthKeysPath", "apps/wolfsshd/auth.c:ExpandAuthKeysTokens", "apps/wolfsshd/auth.c:SearchForPubKey"]}
{"id": "C88", "title": "A certificate can be used only by its principals, in its time, and from its addresses", "statement": "wolfsshd accepts a certificate for a user only if the user name is one of the principals, the time is in its validity interval, and, if it has a source-address option, the whole list is well formed and the peer's address is in one of its ranges.", "quantifier": "all certificates, names, times, lists and addresses", "why_tests_cant": "ranges, prefixes and lists cannot be enumerated", "anchors": ["apps/wolfsshd/auth.c:OsshCertCheckPrincipal", "apps/wolfsshd/auth.c:OsshCertCheckValidity", "apps/wolfsshd/auth.c:OsshPrefixMatch", "apps/wolfsshd/auth.c:OsshSourceAddrMatch", "apps/wolfsshd/auth.c:OsshCertCheckSourceAddress"]}
{"id": "C89", "title": "With strict modes only files nobody else can change are trusted", "statement": "A keys file, CA file or host key is read through the strict opener exactly if it is a regular file and no link, belongs to its owner or root, cannot be written (a secret not even read) by others, and no directory on the way to it lets others replace it. A key is authorized under strict modes only by such a file.", "quantifier": "all paths, owners, modes and directory trees", "why_tests_cant": "permissions, owners and depths combine in more ways than tests can set up", "anchors": ["apps/wolfsshd/auth.c:wolfSSHD_OpenSecureFile", "apps/wolfsshd/auth.c:SearchKeysFile"]}
{"id": "C90", "title": "The settings of a user are those the configuration file states", "statement": "After a configuration was loaded, each setting in force for a user is the one stated by the lines for everybody followed by the first Match block about the user, the last line with a keyword counting, and the documented default if no line states it.", "quantifier": "all configuration files, users and groups", "why_tests_cant": "files have arbitrary lines, blocks, spacing and order", "anchors": ["apps/wolfsshd/configuration.c:wolfSSHD_ConfigLoad", "apps/wolfsshd/configuration.c:ParseConfigLine", "apps/wolfsshd/configuration.c:HandleMatch", "apps/wolfsshd/configuration.c:wolfSSHD_GetUserConf"]}
{"id": "C91", "title": "A mistake in the configuration is not skipped", "statement": "A configuration loads only if each line, of the file and of included files, is a comment, empty, or a known keyword with an argument the keyword can have; a Match line only with supported selectors; a file that includes itself does not load.", "quantifier": "all configuration files and include graphs", "why_tests_cant": "a single unknown or misspelt value that is ignored silently opens the server", "anchors": ["apps/wolfsshd/configuration.c:ParseConfigLine", "apps/wolfsshd/configuration.c:HandleConfigOption", "apps/wolfsshd/configuration.c:CheckMatchSelectors", "apps/wolfsshd/configuration.c:HandleInclude"]}
{"id": "C92", "title": "A password lets in exactly those who may use one", "statement": "wolfsshd accepts a password exactly if the user exists, the settings in force for them allow passwords (for root also root login without restriction, for the empty password also empty passwords), and the password fits the hash on record of an account that is not locked. The settings are those the configuration file states, and the user is the one named in the request.", "quantifier": "all users, passwords, configurations, user databases and hash functions", "why_tests_cant": "rules on root, empty passwords, locked accounts and Match blocks combine", "anchors": ["apps/wolfsshd/auth.c:RequestAuthentication", "apps/wolfsshd/auth.c:CheckPasswordUnix", "apps/wolfsshd/auth.c:CheckPasswordHashUnix", "apps/wolfsshd/auth.c:DoCheckUser"]}
{"id": "C93", "title": "A key lets in exactly those whose own keys file lists it", "statement": "wolfsshd accepts a plain key exactly if the settings in force for the user allow keys (root only if root may log in, and under forced-commands-only with a forced command), and the keys file of that user, trusted under the strict modes in force, lists the key.", "quantifier": "all users, keys, configurations, file systems and contents of keys files", "why_tests_cant": "configuration, paths, permissions and file contents combine", "anchors": ["apps/wolfsshd/auth.c:RequestAuthentication", "apps/wolfsshd/auth.c:CheckPublicKeyUnix", "apps/wolfsshd/auth.c:SearchForPubKey", "apps/wolfsshd/auth.c:IsRootPubKeyForcedCmdMissing"]}
{"id": "C94", "title": "A certificate lets in exactly those it was issued for by a trusted authority", "statement": "wolfsshd accepts an OpenSSH certificate exactly if keys are allowed for the user, the authority is listed in the trusted file of the user's settings, the user is a principal, and time and peer address satisfy the certificate. An X.509 certificate is accepted without a keys file exactly if one of its principal names is the user's, in an allowed realm, and the authorities of the user's settings are the global ones.", "quantifier": "all users, certificates, configurations, file systems, times and peers", "why_tests_cant": "names, realms, times, addresses and configurations combine", "anchors": ["apps/wolfsshd/auth.c:CheckPublicKeyUnix", "apps/wolfsshd/auth.c:RequestAuthentication", "apps/wolfsshd/auth.c:MatchUPNToUser", "apps/wolfsshd/auth.c:CAKeysFileDiffers"]}
{"id": "C95", "title": "Three wrong passwords end a connection", "statement": "On one connection at most two wrong passwords are answered as wrong; the third is rejected, whatever else was tried in between.", "quantifier": "all sequences of requests of any kind", "why_tests_cant": "the sequences are unbounded and mix methods", "anchors": ["apps/wolfsshd/auth.c:RequestAuthentication", "apps/wolfsshd/auth.c:wolfSSHD_AuthCreateUser"]}
{"id": "C96", "title": "A rejection by the application ends the session", "statement": "Once the user authentication callback has answered WOLFSSH_USERAUTH_REJECTED, the callback is not called again, no further message is acted upon and no success is sent, however the client and the transport behave; only the failure reply and a disconnect message go out.", "quantifier": "all sessions: all client messages, transports, applications and call sequences that stop at fatal errors", "why_tests_cant": "a rejection can come at any point of any session", "anchors": ["src/internal.c:DoUserAuthRequest", "src/internal.c:DoUserAuthRequestPassword", "src/internal.c:DoUserAuthRequestPublicKey", "src/internal.c:DoUserAuthInfoResponse", "src/internal.c:SendUserAuthKeyboardRequest", "src/ssh.c:wolfSSH_accept", "wolfssh/ssh.h:WS_CallbackUserAuth"]}
{"id": "C97", "title": "A wolfsshd session belongs to a user who may log in", "statement": "If a session of wolfsshd gets past authentication, then its user showed a password that lets them in, or the session was signed, over its own identifier, with a key of the user's keys file or a key certified for the user by a trusted authority.", "quantifier": "all sessions, clients, transports, configurations, user databases and file systems", "why_tests_cant": "needs the protocol, the callback and the configuration together", "anchors": ["src/ssh.c:wolfSSH_accept", "src/internal.c:DoUserAuthRequest", "apps/wolfsshd/auth.c:RequestAuthentication", "apps/wolfsshd/wolfsshd.c:HandleConnection"]}
{"id": "C98", "title": "A forced command bounds what a session may do", "statement": "For a user with a configured ForceCommand only that command is run, and files are transferred only if it is internal-sftp; else, if the certificate the user logged in with forces a command, only that is run, SFTP is served only if it is internal-sftp and SCP never; otherwise the user gets the shell, command, SFTP or SCP they asked for. The shell is the one of the user's entry.", "quantifier": "all users, configurations, certificates, session requests and failures of system calls", "why_tests_cant": "requests, certificates, settings and failures combine", "anchors": ["apps/wolfsshd/wolfsshd.c:HandleConnection", "apps/wolfsshd/wolfsshd.c:SHELL_Subsystem", "apps/wolfsshd/wolfsshd.c:IsRootTransferBlocked", "apps/wolfsshd/wolfsshd.c:UserAuthResult", "apps/wolfsshd/auth.c:wolfSSHD_AuthMergeForcedCmd"]}
{"id": "C99", "title": "What is done for a user is done as that user", "statement": "Whatever works for a logged-in user - the program started for them, SFTP, SCP - runs with the user's real, effective and saved ids and exactly the user's groups, and with ChrootDirectory inside that directory, whichever system calls fail; otherwise it does not run. The process that relays for a program has the user's ids too.", "quantifier": "all users, settings, session requests, initial rights of the daemon and patterns of failing system calls", "why_tests_cant": "each of a dozen system calls may fail at any point", "anchors": ["apps/wolfsshd/wolfsshd.c:SCP_Subsystem", "apps/wolfsshd/wolfsshd.c:SFTP_Subsystem", "apps/wolfsshd/wolfsshd.c:SHELL_Subsystem", "apps/wolfsshd/wolfsshd.c:SetupChroot", "apps/wolfsshd/auth.c:wolfSSHD_AuthReducePermissionsUser", "apps/wolfsshd/auth.c:wolfSSHD_AuthSetGroups"]}
{"id": "C100", "title": "Whatever a server sends, a client transfer stays within its buffers", "statement": "During wolfSSH_SFTP_Get, wolfSSH_SFTP_Put and wolfSSH_SFTP_SendReadPacket no reply makes the client read or write outside a buffer: handles have at most 256 bytes, no more than 32768 bytes go to the local file at a time, and a read puts no more into the caller's buffer than fits.", "quantifier": "all servers, arguments, local files, ways data arrives and notices between calls", "why_tests_cant": "replies are arbitrary bytes cut at arbitrary places", "anchors": ["src/wolfsftp.c:wolfSSH_SFTP_Get", "src/wolfsftp.c:wolfSSH_SFTP_Put", "src/wolfsftp.c:wolfSSH_SFTP_SendReadPacket", "src/wolfsftp.c:wolfSSH_SFTP_GetHandle", "src/wolfsftp.c:SFTP_GetHeader"]}
{"id": "C101", "title": "A file that was fetched is the file", "statement": "When wolfSSH_SFTP_Get succeeds uninterrupted, the local file is what the server sent, in order; it asks for each piece exactly behind what it has written; on failure the local file is untouched or a beginning of that.", "quantifier": "all files, servers that answer as the protocol says, sizes of pieces, ways replies are cut and notices between calls", "why_tests_cant": "file sizes and ways of cutting replies are unbounded", "anchors": ["src/wolfsftp.c:wolfSSH_SFTP_Get", "src/wolfsftp.c:wolfSSH_SFTP_SendReadPacket", "src/wolfsftp.c:SFTP_STAT", "src/wolfsftp.c:wolfSSH_SFTP_Open"]}
{"id": "C102", "title": "A file that was stored is the file", "statement": "When wolfSSH_SFTP_Put succeeds, the write requests it has sent make the remote file, which it has opened and emptied, the local file, and the server has accepted them; a resumed store completes the file.", "quantifier": "all files, servers, sizes of pieces, ways of sending and notices between calls", "why_tests_cant": "file sizes, failures and back-pressure combine without bound", "anchors": ["src/wolfsftp.c:wolfSSH_SFTP_Put", "src/wolfsftp.c:wolfSSH_SFTP_SendWritePacket", "src/wolfsftp.c:wolfSSH_SFTP_Open"]}
{"id": "C103", "title": "An interrupted fetch can be resumed", "statement": "A fetch interrupted by wolfSSH_SFTP_Interrupt leaves an offset under its file names; the fetch that resumes it asks for exactly what belongs behind the local file, and if the server then sends the rest the local file is the remote one.", "quantifier": "all names, files, offset tables, points of interruption and servers", "why_tests_cant": "any point of any transfer can be the interrupted one", "anchors": ["src/wolfsftp.c:wolfSSH_SFTP_SaveOfst", "src/wolfsftp.c:wolfSSH_SFTP_GetOfst", "src/wolfsftp.c:wolfSSH_SFTP_Get", "src/wolfsftp.c:wolfSSH_SFTP_Interrupt"]}
{"id": "C104", "title": "Requests of a client transfer go out whole, once and in order", "statement": "What a transfer puts on the channel is at any time a sequence of whole request packets and a beginning of one more, however the channel accepts data; no request is sent twice.", "quantifier": "all transfers, channels, windows and notices between calls", "why_tests_cant": "back-pressure can come at every byte", "anchors": ["src/wolfsftp.c:wolfSSH_SFTP_Put", "src/wolfsftp.c:wolfSSH_SFTP_Get", "src/wolfsftp.c:SendPacketType", "src/wolfsftp.c:wolfSSH_SFTP_Close", "src/wolfsftp.c:wolfSSH_SFTP_buffer_send"]}
{"id": "C105", "title": "The client trusts known host keys and no others", "statement": "The example client's host key check accepts a host key without a question exactly if the file of known hosts has it for this server and type of key, refuses it if the file has another, and asks the user otherwise; then only the answer Y accepts it. With X.509 host keys the certificate must also name the server's address, unless that comparison is switched off.", "quantifier": "all files, host names, host keys, answers and failures of the file system", "why_tests_cant": "files and keys are arbitrary bytes", "anchors": ["apps/wolfssh/common.c:ClientPublicKeyCheck", "apps/wolfssh/common.c:load_text_file", "apps/wolfssh/common.c:ParseRFC6187", "apps/wolfssh/common.c:ClientIPOverride"]}
{"id": "C106", "title": "A host key that was confirmed is remembered", "statement": "When the user confirms the key of an unknown server, the file of known hosts gets exactly one entry more, for this server, type and key, behind what it had: next time this key is accepted without a question, another of its type is refused, and all other servers and types are judged as before.", "quantifier": "all files, servers and keys", "why_tests_cant": "files are arbitrary bytes and histories of any length", "anchors": ["apps/wolfssh/common.c:AppendKeyToFile", "apps/wolfssh/common.c:AppendNeedsNewline", "apps/wolfssh/common.c:IsFieldStorable", "apps/wolfssh/common.c:ClientPublicKeyCheck"]}
{"id": "C107", "title": "A connection goes on only with a trusted host key", "statement": "If the client derives keys from a key exchange reply, the signature in the reply verifies under a host key that the file of known hosts has for the server, or that the user has just confirmed as that of an unknown server.", "quantifier": "all replies, states of the exchange, files and answers", "why_tests_cant": "needs the key exchange and the check together, for arbitrary messages", "anchors": ["src/internal.c:DoKexDhReply", "apps/wolfssh/common.c:ClientPublicKeyCheck"]}
{"id": "C108", "title": "Destinations mean what they say", "statement": "The example client reads [user@]host and ssh://[user@]host[:port] with a port of 1 to 65535; given parts replace the caller's values, parts left out keep them, and anything else is an error that changes nothing.", "quantifier": "all destinations and previous values", "why_tests_cant": "texts are arbitrary", "anchors": ["apps/wolfssh/common.c:ClientParseDestination"]}
{"id": "C109", "title": "A client's authentication requests are the protocol's, and its signatures bind the session", "statement": "Every message a client sends to authenticate is one of those of RFC 4252 and 4256, for the user it was set up with, allowed by the server's last message, with what the application gave. A public key request names an algorithm the server has announced, chosen by the key's type, and carries a signature by the application's key over the session identifier and exactly the rest of that message; the client sends it if it can.", "quantifier": "all messages of the server in any order, answers of the application, keys, results of the packet layer", "why_tests_cant": "messages and histories are unbounded; a signature over other bytes verifies in no test of a peer that makes the same mistake", "anchors": ["src/internal.c:SendUserAuthRequest", "src/internal.c:PrepareUserAuthRequestPublicKey", "src/internal.c:BuildUserAuthRequestPublicKey", "src/internal.c:DoUserAuthFailure", "src/internal.c:DoExtInfo"]}
{"id": "C110", "title": "A server cannot make a client give away what it did not offer to take", "statement": "A client's application is asked for a password only when the server offers that method, for a key only when it offers public keys, for answers to prompts only when it has sent prompts in the keyboard-interactive method the client has requested; a session has at most one public key request and three keyboard-interactive requests.", "quantifier": "all messages of the server in any order and number", "why_tests_cant": "a hostile server can send any sequence", "anchors": ["src/internal.c:SendUserAuthRequest", "src/internal.c:DoUserAuthFailure", "src/internal.c:DoUserAuthInfoRequest", "src/internal.c:SendUserAuthKeyboardResponse"]}
{"id": "C111", "title": "A password arrives", "statement": "A client that is offered the password method sends a request by which the server's application is asked about exactly that user and exactly that password; if it agrees, the user is authenticated.", "quantifier": "all users, passwords of up to about 35000 bytes, server states", "why_tests_cant": "both ends together, for arbitrary bytes", "anchors": ["src/internal.c:SendUserAuthRequest", "src/internal.c:PrepareUserAuthRequestPassword", "src/internal.c:BuildUserAuthRequestPassword", "src/internal.c:DoUserAuthRequest", "src/internal.c:DoUserAuthRequestPassword"]}
{"id": "C112", "title": "A key arrives", "statement": "For the request a client makes with a plain RSA, ECDSA or Ed25519 key, the server's application is asked about exactly that user, algorithm and key, and on its success the server checks exactly the client's signature over exactly what the client signed; if it verifies the user is authenticated.", "quantifier": "all users, keys, announced algorithms, server states", "why_tests_cant": "both ends together, for arbitrary bytes", "anchors": ["src/internal.c:BuildUserAuthRequestPublicKey", "src/internal.c:DoUserAuthRequestPublicKey", "src/internal.c:DoUserAuthRequestEd25519", "src/internal.c:DoUserAuthRequestRsa", "src/internal.c:DoUserAuthRequestEcc"]}
{"id": "C113", "title": "Methods, prompts and announced algorithms arrive at the client", "statement": "The methods a server offers are exactly those its application allows; prompts without NUL bytes of the server's application reach the client's as they are and the answers the server's as they are; the accepted key algorithms are announced as RFC 8308 says.", "quantifier": "all sets of methods, prompts, answers and lists", "why_tests_cant": "both ends together, for arbitrary bytes", "anchors": ["src/internal.c:SendUserAuthFailure", "src/internal.c:GetAllowedAuth", "src/internal.c:SendUserAuthKeyboardRequest", "src/internal.c:DoUserAuthInfoRequest", "src/internal.c:SendUserAuthKeyboardResponse", "src/internal.c:DoUserAuthInfoResponse", "src/internal.c:SendExtInfo"]}
{"id": "C114", "title": "What the SFTP client sends to change files", "statement": "At every point of a call of wolfSSH_SFTP_Rename, _Remove, _RMDIR, _MKDIR, _SetSTAT or _CHMOD, whatever the server says and however packets are cut, the client has sent whole questions about the file it is told to change followed by the beginning of one packet: another question or exactly the request of the SFTP draft for the change with the application's arguments; a call that succeeds has sent all of that request.", "quantifier": "all paths and attributes, all behaviours of server and connection, all points of a call", "why_tests_cant": "every partial send, notice and reply, in every order", "anchors": ["src/wolfsftp.c:wolfSSH_SFTP_Rename", "src/wolfsftp.c:wolfSSH_SFTP_Remove", "src/wolfsftp.c:wolfSSH_SFTP_RMDIR", "src/wolfsftp.c:wolfSSH_SFTP_MKDIR", "src/wolfsftp.c:wolfSSH_SFTP_SetSTAT", "src/wolfsftp.c:wolfSSH_SFTP_CHMOD", "src/wolfsftp.c:SendPacketType"]}
{"id": "C115", "title": "The SFTP client reports the server's status", "statement": "With a server that answers each request and a connection that works, each of these calls sends one request for the change, reads exactly the answers, and succeeds if and only if the server's status was SSH_FX_OK.", "quantifier": "all calls, arguments, attributes, statuses, ways to cut the replies", "why_tests_cant": "every way to cut packets and every interruption", "anchors": ["src/wolfsftp.c:wolfSSH_SFTP_Rename", "src/wolfsftp.c:wolfSSH_SFTP_Remove", "src/wolfsftp.c:wolfSSH_SFTP_RMDIR", "src/wolfsftp.c:wolfSSH_SFTP_MKDIR", "src/wolfsftp.c:wolfSSH_SFTP_SetSTAT", "src/wolfsftp.c:wolfSSH_SFTP_CHMOD", "src/wolfsftp.c:wolfSSH_SFTP_DoStatus"]}
{"id": "C116", "title": "Changes the client asks for happen at the server", "statement": "Between a wolfSSH client and a wolfSSH server, each of these calls makes the server perform exactly the one system call the application asked for, on the files its paths name in the session, or none if the session's jail refuses them, and the client's result is the result of that system call.", "quantifier": "all sessions and histories of the server, calls, paths, ways to cut the replies", "why_tests_cant": "both ends together, for arbitrary paths and histories", "anchors": ["src/wolfsftp.c:wolfSSH_SFTP_Rename", "src/wolfsftp.c:wolfSSH_SFTP_Remove", "src/wolfsftp.c:wolfSSH_SFTP_RMDIR", "src/wolfsftp.c:wolfSSH_SFTP_MKDIR", "src/wolfsftp.c:wolfSSH_SFTP_CHMOD", "src/wolfsftp.c:wolfSSH_SFTP_RecvRename", "src/wolfsftp.c:wolfSSH_SFTP_RecvRemove", "src/wolfsftp.c:wolfSSH_SFTP_RecvRMDIR", "src/wolfsftp.c:wolfSSH_SFTP_RecvMKDIR", "src/wolfsftp.c:wolfSSH_SFTP_RecvSetSTAT"]}
{"id": "C117", "title": "What the SFTP client sends to list a directory", "statement": "At every point of wolfSSH_SFTP_LS, whatever the server says and however packets are cut or interrupted, there is no memory error and the client has sent a prefix of: REALPATH with the application's name, OPENDIR, any number of READDIR and CLOSE, the last two with one handle only.", "quantifier": "all names, all behaviours of server and connection, all points of a call", "why_tests_cant": "every partial send, notice and reply, in every order; packets of arbitrary bytes", "anchors": ["src/wolfsftp.c:wolfSSH_SFTP_LS", "src/wolfsftp.c:wolfSSH_SFTP_DoName", "src/wolfsftp.c:wolfSSH_SFTP_ReadDir", "src/wolfsftp.c:wolfSSH_SFTP_RealPath", "src/wolfsftp.c:wolfSSH_SFTP_OpenDir"]}
{"id": "C118", "title": "A listing has every entry the server shows", "statement": "With a server that answers each request, wolfSSH_SFTP_LS returns exactly the entries of all NAME packets, with their names, long names and attributes, reads exactly the answers and closes the directory; if the listing ends early the application can tell.", "quantifier": "all directories shown in any number of packets, all ways to cut and delay the replies", "why_tests_cant": "directories, packets and interruptions are unbounded", "anchors": ["src/wolfsftp.c:wolfSSH_SFTP_LS", "src/wolfsftp.c:wolfSSH_SFTP_DoName", "src/wolfsftp.c:wolfSSH_SFTP_ReadDir", "src/wolfsftp.c:wolfSSH_SFTP_Close"]}
{"id": "C119", "title": "A directory of the server is listed as it is", "statement": "Between a wolfSSH client and a wolfSSH server, listing a path the session may see returns exactly the names in that directory with the attributes they have, in the order of the file system, and leaves the server with the files and directories it had open before.", "quantifier": "all sessions and histories of the server, paths, directories, ways to cut the replies", "why_tests_cant": "both ends together, for arbitrary paths, directories and histories", "anchors": ["src/wolfsftp.c:wolfSSH_SFTP_LS", "src/wolfsftp.c:wolfSSH_SFTP_RecvRealPath", "src/wolfsftp.c:wolfSSH_SFTP_RecvOpenDir", "src/wolfsftp.c:wolfSSH_SFTP_RecvReadDir", "src/wolfsftp.c:wolfSSH_SFTP_RecvClose"]}
{"id": "C120", "title": "The session a client chooses is the one it asks for", "statement": "Whatever was chosen before, wolfSSH_connect asks the server for exactly what the last call of wolfSSH_SetChannelType chose: that command, that subsystem, a shell, or a shell with a terminal; a call that is refused changes nothing, and a name that cannot be used is refused.", "quantifier": "all earlier choices, types, names of any length, failures of allocation", "why_tests_cant": "all names and all sequences of choices", "anchors": ["src/ssh.c:wolfSSH_SetChannelType", "src/internal.c:SendChannelRequest"]}
{"id": "C121", "title": "Channel requests of a client arrive at the server's application", "statement": "The command, subsystem, terminal size and modes, later sizes, agent request and exit status one side gives are, byte for byte and with the sign of the status, what the other side's application is asked about and finds in the session; a reply is sent if and only if one is wanted and tells the application's answer.", "quantifier": "all contents and lengths, all states of the receiving side, whatever lies behind the message in memory", "why_tests_cant": "both ends together for arbitrary contents", "anchors": ["src/internal.c:SendChannelRequest", "src/internal.c:SendChannelTerminalRequest", "src/internal.c:SendChannelTerminalResize", "src/internal.c:SendChannelAgentRequest", "src/internal.c:SendChannelExit", "src/internal.c:DoChannelRequest", "src/ssh.c:wolfSSH_GetExitStatus"]}
{"id": "C122", "title": "Forwarding requests of a client arrive at the server's application", "statement": "wolfSSH_FwdRemoteSetup and wolfSSH_FwdRemoteCancel make the server's application be asked about exactly the given address and port, with a reply if and only if it is wanted, which is a success only if granted and brings the port granted; invalid arguments, servers and a key exchange in progress are refused without sending anything. wolfSSH_global_request carries its name and the answer in the same way.", "quantifier": "all addresses, ports, wishes for a reply, answers of the application", "why_tests_cant": "both ends together for arbitrary contents", "anchors": ["src/ssh.c:wolfSSH_FwdRemoteSetup", "src/ssh.c:wolfSSH_FwdRemoteCancel", "src/ssh.c:wolfSSH_global_request", "src/internal.c:SendGlobalRequestFwd", "src/internal.c:SendGlobalRequest", "src/internal.c:DoGlobalRequest", "src/internal.c:DoRequestSuccess"]}
{"id": "C123", "title": "Each message of the session's setup is sent once and in order", "statement": "However often wolfSSH_connect has to be called, wherever writing stalls and whatever arrives, the client opens one channel and sends the agent request, the terminal request and the session request, those that are wanted, once each and in this order; all of them have been sent when it succeeds, and no earlier stall makes it impossible to succeed.", "quantifier": "all configurations, all sequences of calls, all places where writing stalls, all messages of the server", "why_tests_cant": "every interleaving of stalls, messages and calls", "anchors": ["src/ssh.c:wolfSSH_connect", "src/ssh.c:wolfSSH_worker", "src/internal.c:SendChannelRequest"]}
{"id": "C124", "title": "wolfSSH_connect succeeds only if the session was accepted", "statement": "When wolfSSH_connect has returned success, the server has accepted the request for the shell, command or subsystem, and no answer was a refusal.", "quantifier": "all configurations, all sequences of calls and messages of a server that answers in order", "why_tests_cant": "every order of answers and calls", "anchors": ["src/ssh.c:wolfSSH_connect", "src/internal.c:DoChannelSuccess", "src/internal.c:DoChannelFailure"]}
{"id": "C125", "title": "A server sets its terminal as the modes say", "statement": "wolfSSH_DoModes refuses modes that are missing, empty or cut off and then changes nothing; from all others, whatever bytes they are, it sets each control character, flag and speed its platform has to the last value told before the end of the list, and changes nothing else; it never reads outside of the modes.", "quantifier": "all byte strings, all platforms and terminals", "why_tests_cant": "arbitrary bytes from the peer", "anchors": ["src/internal.c:wolfSSH_DoModes"]}
{"id": "C126", "title": "The settings of the client's terminal arrive at the server's", "statement": "The control characters, flags and speeds of the client's terminal that both platforms know are, after the pseudo-terminal request, those of the server's terminal; those the client does not know are as before.", "quantifier": "all settings of both terminals, all pairs of platforms", "why_tests_cant": "both ends together, for all settings and platforms", "anchors": ["src/internal.c:CreateMode", "src/internal.c:CreateModeTermios", "src/internal.c:wolfSSH_DoModes"]}
{"id": "C127", "title": "A signature got from the user's key agent is the agent's", "statement": "wolfSSH_AGENT_SignRequest writes one message, the agent protocol's request to sign the given data with the given key and flags; it succeeds if and only if the application connected, took the whole message, and read an answer that holds a signature which is not empty and fits the caller's buffer, and then gives exactly that signature; otherwise the size given back is zero and the buffer is untouched. Whatever an agent answers, it stays inside its memory, over any number of calls, and the application is told to disconnect on every path.", "quantifier": "all data, keys, flags, buffer sizes, all answers of agents, all histories of up to two million calls on a context", "why_tests_cant": "arbitrary bytes from the agent, over histories of calls", "anchors": ["src/agent.c:wolfSSH_AGENT_SignRequest", "src/agent.c:SendSignRequest", "src/agent.c:DoMessage", "src/agent.c:DoSignResponse", "src/agent.c:DoAddIdentity"]}
{"id": "C128", "title": "Asking an agent leaves nothing behind", "statement": "wolfSSH_AGENT_SignRequest does not change the identities the agent context holds and frees every buffer it allocates, whatever the agent answers.", "quantifier": "all answers of agents, all states of the context", "why_tests_cant": "arbitrary bytes from the agent", "anchors": ["src/agent.c:wolfSSH_AGENT_SignRequest", "src/agent.c:DoMessage", "src/agent.c:DoUnimplemented", "src/agent.c:SendFailure", "src/agent.c:PostAddRsaId", "src/agent.c:PostRemoveAllIds"]}
{"id": "C129", "title": "A relayed agent message was taken and its answer is the agent's", "statement": "When wolfSSH_AGENT_Relay succeeds, the application is connected to the agent, the agent took as many bytes of the message as the size given back says, and the answer is what one read after that gave; the application is asked to connect at most twice, the second time only after a write failed.", "quantifier": "all messages, all results of the application's callbacks, all states of the context", "why_tests_cant": "every combination of results of the callbacks", "anchors": ["src/agent.c:wolfSSH_AGENT_Relay"]}
{"id": "C130", "title": "A server sends each of its messages once, in order and in its turn", "statement": "However often wolfSSH_accept is called, wherever the transport stalls and whatever arrives, what it sends of its own accord is a beginning of its version, its KEXINIT, the acceptance of the service, the success of the authentication and one request for an agent channel; none goes out before the client has done what it answers; when a call succeeds all have been sent and the client has asked for its session; and after calls that only had to wait, a willing transport and client make it succeed.", "quantifier": "all sequences of calls, all stalls of the transport, all effects of received messages", "why_tests_cant": "every place at which writing can stall, over any number of calls", "anchors": ["src/ssh.c:wolfSSH_accept"]}
{"id": "C131", "title": "A host key is the one loaded last, and so is the key of its certificate", "statement": "Whatever private keys and certificates were loaded into a context, in any order and number, the server signs for a type of key with the private key of that type loaded last, and for a certificate of that type it uses the certificate loaded last with that same private key; a call fails exactly if what it gives cannot be read or would be a seventeenth key or certificate, and then changes nothing.", "quantifier": "all sequences of keys and certificates in every format, all results of the decoders", "why_tests_cant": "every order of loading and replacing keys and certificates of different types", "anchors": ["src/internal.c:SetHostPrivateKey", "src/internal.c:SetHostCertificate", "src/internal.c:UpdateHostCertificates", "src/internal.c:wolfSSH_ProcessBuffer"]}
{"id": "C132", "title": "A server offers the host key algorithms of the keys it has", "statement": "The host key algorithms a server offers are exactly the names of the keys and certificates loaded, in the order in which they were first loaded, none left out or twice, and for each of them the server has a private key.", "quantifier": "all sequences of keys and certificates, all builds", "why_tests_cant": "every history of loading, up to the capacity of the tables", "anchors": ["src/internal.c:RefreshPublicKeyAlgo", "src/internal.c:SetHostPrivateKey", "src/internal.c:SetHostCertificate", "src/internal.c:SendKexDhReply"]}
{"id": "C133", "title": "A shell's output reaches the client whole and in order", "statement": "Whatever a shell or command writes and when, whatever the client sends, and wherever the client's window or the transport stalls: what wolfsshd has sent as stdout is at any time a beginning of what the child wrote to stdout, and so for stderr, and when the child has ended and the client takes what it is sent, all of both has been sent.", "quantifier": "all interleavings of the child's writes and exit, the client's messages, and stalls and failures of reads, sends and select", "why_tests_cant": "every schedule of the child, the client and the transport", "anchors": ["apps/wolfsshd/wolfsshd.c:SHELL_Subsystem", "apps/wolfsshd/wolfsshd.c:SHELL_FlushOut"]}
{"id": "C134", "title": "What a client types reaches the shell whole and in order", "statement": "What the shell or command gets on its stdin is at any time a beginning of the data the client sent on its channel, nothing of it is passed over while the relay goes on, and data that was received reaches the child when the child takes it.", "quantifier": "all interleavings of the client's data and end of data, the child's output, and stalls of the client's window and the transport", "why_tests_cant": "every schedule of the child, the client and the transport", "anchors": ["apps/wolfsshd/wolfsshd.c:SHELL_Subsystem", "src/ssh.c:wolfSSH_worker", "src/ssh.c:wolfSSH_stream_peek"]}
{"id": "C135", "title": "All certificates in a PEM file of authorities are loaded, and nothing else", "statement": "Loading root certificates from PEM decodes and loads exactly the whole certificate blocks of the file, each from its header to its footer and in their order, whatever text stands between them and also behind a block that is damaged or cut off; it succeeds if and only if at least one was loaded; and whatever bytes are given, it reads only those.", "quantifier": "all buffers; all files made of lines of text, blocks of both forms, and blocks without their end; all results of decoding", "why_tests_cant": "every arrangement of blocks, damaged blocks and text", "anchors": ["src/internal.c:LoadRootCaPemBuffer", "src/internal.c:FindInBuffer", "src/ssh.c:wolfSSH_CTX_AddRootCert_buffer"]}
{"id": "C136", "title": "A private key file in OpenSSH's format is read as what it is", "statement": "A private key file in OpenSSH's format is accepted exactly if it is the encoding of one key of a supported type, with equal check numbers, the padding that the format demands, and with numbers that the crypto library takes; the library is given exactly the numbers of the file; a key that was written without a passphrase is read back; an encrypted file, or one whose public key or curve is not that of the private key, is refused; and no file makes it read beyond its end.", "quantifier": "all byte strings, all keys of all types, all answers of the crypto library", "why_tests_cant": "every malformed nesting of lengths and every combination of fields that contradict each other", "anchors": ["src/ossh.c:GetOpenSshKey", "src/ossh.c:IdentifyOpenSshKey", "src/ssh.c:wolfSSH_ReadKey_buffer"]}
{"id": "C137", "title": "Reading a private key file frees the objects of the key, once", "statement": "Whatever a private key file in OpenSSH's format contains, and whichever initialisation or import of the crypto library fails while it is read, every key object that was made is freed exactly once when the call is over.", "quantifier": "all byte strings, all failures of the crypto library", "why_tests_cant": "every error path of every type of key", "anchors": ["src/ossh.c:GetOpenSshKey", "src/ossh.c:IdentifyOpenSshKey", "src/internal.c:wolfSSH_KEY_clean", "src/internal.c:InitCompositeKeyPair"]}
{"id": "C138", "title": "Reading a key from a buffer gives the key that is in it", "statement": "If reading a key from a buffer succeeds, the key given is the one in the buffer (the decoded second word of a public key line, the DER or the decoded PEM or OpenSSH file for a private key, the wire form for a public key in DER), and the type given is that of the key; and every buffer that holds a key is read if there is room for the result.", "quantifier": "all formats, byte strings, name tables, decoders and sizes of buffers", "why_tests_cant": "every placement of blanks, line ends, zero bytes and footers, and every number in a key", "anchors": ["src/ssh.c:wolfSSH_ReadKey_buffer", "src/ssh.c:wolfSSH_ReadPublicKey_buffer", "src/internal.c:WS_StripOpenSshPem"]}
{"id": "C139", "title": "Reading a key respects the caller's buffer and leaves nothing of a refused key", "statement": "A caller that supplies a buffer gets the key in it, within its size, and one that supplies none gets an allocated one; after a failure the pointer and the size are as before, nothing that was allocated is left, and no byte of a private key that was decoded and refused is left in the caller's buffer.", "quantifier": "all formats, byte strings, buffers, and failures of allocations and decoders", "why_tests_cant": "every failure of memory or of a decoder at every point", "anchors": ["src/ssh.c:wolfSSH_ReadKey_buffer", "src/ssh.c:wolfSSH_ReadPublicKey_buffer"]}
{"id": "C140", "title": "A peer's certificate chain is accepted only if it leads to a trusted root", "statement": "When certificates are verified, the first certificate of the chain a peer sends is accepted only if it is valid and not revoked at that time, is no authority, and a path of authorities leads from it to a certificate the application has loaded; every certificate of the path came in a message of a peer, was signed by the one before, and was valid and not revoked when it came. What is not a chain of one to nine certificates is refused and changes nothing.", "quantifier": "all histories of loaded roots and chains of peers at all times, all messages, all answers of the certificate library that are sound", "why_tests_cant": "chains of any contents at any time, after any history of other peers", "anchors": ["src/certman.c:wolfSSH_CERTMAN_VerifyCerts_buffer", "src/certman.c:wolfSSH_CERTMAN_LoadRootCA_buffer", "src/certman.c:CertManIntermediateIsCA", "src/internal.c:ParseCertChain", "src/internal.c:ParseCertChainVerify"]}
{"id": "C141", "title": "Of a good chain, exactly the leaves that conform to the profile are accepted", "statement": "A chain of up to nine certificates that each are signed by the next, the last by a trusted root, all valid, not revoked and all but the first authorities, is accepted exactly if the first is no authority and, when the profiles of the Federal PKI are demanded, conforms to worksheet 6, 10 or 16; otherwise the error says that the profile does not match.", "quantifier": "all chains, all contents of the first certificate", "why_tests_cant": "every combination of fields of a certificate", "anchors": ["src/certman.c:wolfSSH_CERTMAN_VerifyCerts_buffer", "src/certman.c:CheckProfile", "src/internal.c:ParseCertChainVerify"]}
{"id": "C142", "title": "A composite signature is accepted exactly if both of its parts are good", "statement": "A composite signature of ML-DSA and ECDSA or EdDSA is accepted exactly if it consists of a part of the size of ML-DSA and a traditional part in its form, and both verify for the same digest bound to the name of the combination; a server accepts the signature in a public-key request exactly if it is such a signature of session id, user, service, algorithm and key. The bound message tells the combination, so that neither part can be reused in another one. Nothing outside of the buffers is read.", "quantifier": "all six combinations, keys, signatures, messages, requests, sessions, and answers of wolfCrypt", "why_tests_cant": "every signature of every length, and every pair of combinations", "anchors": ["src/internal.c:VerifyMlDsaComposite", "src/internal.c:CompositeEccVerify", "src/internal.c:CompositeEd25519Verify", "src/internal.c:BuildCompositeMPrime", "src/internal.c:DoUserAuthRequestMlDsaComposite", "src/internal.c:WS_GetCompositeParams"]}
{"id": "C143", "title": "Composite signatures fit their buffers and are accepted by the other side", "statement": "If matching private keys answer, a composite signature is made, fits into the size announced for it, and verifies with the public keys; what a client appends to its public-key request is one string within the room reserved, and the server accepts it. The numbers of ECDSA are written as canonical mpints.", "quantifier": "all six combinations, all keys that match, messages, and randomness of signatures", "why_tests_cant": "sizes of ECDSA signatures vary at random", "anchors": ["src/internal.c:SignHMlDsaComposite", "src/internal.c:CompositeEccSign", "src/internal.c:BuildUserAuthRequestMlDsaComposite", "src/internal.c:PrepareUserAuthRequestMlDsaComposite", "src/internal.c:DoUserAuthRequestMlDsaComposite"]}
{"id": "C144", "title": "Disconnect, ignore, unimplemented and debug messages", "statement": "A disconnect message ends the session, and ignore, unimplemented and debug messages are taken in, exactly if the payload begins with the fields of RFC 4253 section 11 (and there is memory for a debug message); the cursor is then behind them, and stays or is followed by an error otherwise. A debug message is logged if and only if its flag is set. No byte outside of the payload is read, and all memory taken is given back once, whatever fails.", "quantifier": "all payloads of all lengths, and all failures of allocation", "why_tests_cant": "every malformed payload, and every point at which memory can be missing", "anchors": ["src/internal.c:DoDisconnect", "src/internal.c:DoIgnore", "src/internal.c:DoUnimplemented", "src/internal.c:DoDebug"]}
{"id": "C145", "title": "Disconnect, ignore, unimplemented and debug messages sent are understood by the other side", "statement": "These messages are sent in the form of RFC 4253, with the values the caller gave, in just the room reserved for them; the other side takes them in whole: it ends the session, or goes on behind the message, and shows the text of a debug message as it was given.", "quantifier": "all reasons, numbers, data, texts, and flags", "why_tests_cant": "every length of data and text", "anchors": ["src/internal.c:SendDisconnect", "src/internal.c:SendIgnore", "src/internal.c:SendUnimplemented", "src/internal.c:SendDebug", "src/ssh.c:wolfSSH_SendIgnore", "src/ssh.c:wolfSSH_SendDisconnect"]}
{"id": "C146", "title": "A host key in a certificate is sent as RFC 6187 says, and hashed as sent", "statement": "For every host-key algorithm with X.509 certificates, the key that is built is the algorithm's name, one certificate, and no OCSP response; it is written in exactly the room that a call without a buffer announces and nothing else is touched; what goes into the exchange hash is the same string; and a reader finds just the given certificate in it.", "quantifier": "all algorithms, certificates, buffers, positions, and contents of new memory", "why_tests_cant": "every length of certificate and every offset", "anchors": ["src/internal.c:BuildRFC6187Info", "src/internal.c:SendKexGetSigningKey", "src/internal.c:SendKexDhReply"]}
{"id": "C147", "title": "A host key is taken from a certificate only if the chain is good, and it is the certificate's key", "statement": "If a host key is taken from a message with certificates, then the first certificate is valid, not revoked and signed by a trusted one, and the key is the one it holds, of the kind, curve and size of the negotiated algorithm. A chain that is refused gives its code and no key. Whatever fails, the key's copy and the key object are freed exactly once.", "quantifier": "all messages, histories of the certificate manager, algorithms, and failures of wolfCrypt or memory", "why_tests_cant": "every chain, every kind of key under every algorithm, and every point of failure", "anchors": ["src/internal.c:ParsePubKeyCert", "src/internal.c:ParseECCPubKeyCert", "src/internal.c:ParseRSAPubKeyCert", "src/internal.c:ParseMlDsaPubKeyCert", "src/internal.c:ParsePubKey", "src/internal.c:FreePubKey"]}
{"id": "C148", "title": "The daemon starts only with the host key and certificates of its configuration, from safe files", "statement": "The daemon's context is ready exactly if the host key's file passes the checks for secret files and holds a key that the library takes (in PEM, in DER, or of OpenSSH), a host certificate that is set is one of X.509 from a file that passes the checks for trusted ones, and so are the authorities, or they are left to OpenSSH where that is supported; it then uses just these. A file holds one key in one format at most. Methods of authentication are offered only if all of this succeeded.", "quantifier": "all configurations, files, builds with or without certificates, and answers of the libraries", "why_tests_cant": "every content of every file and every combination of failures", "anchors": ["apps/wolfsshd/wolfsshd.c:SetupCTX", "apps/wolfsshd/wolfsshd.c:getBufferFromFile", "apps/wolfsshd/auth.c:wolfSSHD_DetectPrivKeyFormat"]}
{"id": "C149", "title": "The host key's bytes do not stay in freed memory when the daemon starts", "statement": "Whatever fails while the daemon loads its files, each buffer is used within its size and freed exactly once, each file is closed, and every buffer with bytes of the host key is zeroed before it is freed.", "quantifier": "all configurations, files, builds, and points of failure", "why_tests_cant": "every point at which loading can fail, and files that change while they are read", "anchors": ["apps/wolfsshd/wolfsshd.c:SetupCTX", "apps/wolfsshd/wolfsshd.c:getBufferFromFile", "apps/wolfsshd/wolfsshd.c:CleanupCTX", "apps/wolfsshd/auth.c:wolfSSHD_DetectPrivKeyFormat"]}
{"id": "C150", "title": "The PID file is written whole or not at all, and nothing else is written to", "statement": "When the daemon writes its process number, a symbolic link and its target, a file with other names, a file of another owner, and anything but a regular file are left as they are. Whatever fails otherwise, a reader of the file finds nothing, what there was before, or the whole number in a file that only its owner may write to. The descriptor is closed once.", "quantifier": "all states of the file's name, and all combinations of failing system calls", "why_tests_cant": "every point of failure for every kind of file", "anchors": ["apps/wolfsshd/configuration.c:wolfSSHD_ConfigSavePID"]}
{"id": "C151", "title": "A certificate is read from a buffer exactly if there is one, and a failure gives nothing", "statement": "Reading a certificate from a buffer succeeds only for a certificate of X.509 in DER or in PEM (with any text before it, but without trust data) that can be identified, or for a line with the name of a type of OpenSSH certificates whose body decodes and parses as that type. What is given is that certificate with its flavor. With memory, each of these is read. A failure gives no certificate, no type and no flavor, and frees all that it allocated; a success leaves one buffer to the caller.", "quantifier": "all buffers, builds, decoders, and patterns of failing allocation", "why_tests_cant": "every text, with marks at every place, and every failure of a decoder", "anchors": ["src/ssh.c:wolfSSH_ReadCert_buffer", "src/ssh.c:SniffCertForm", "src/ssh.c:DoPemCert", "src/ssh.c:DoDerCert", "src/ssh.c:DoOsshCert", "src/ssh.c:DoSshPubKey"]}
{"id": "C152", "title": "The type reported with an OpenSSH certificate is the one it was parsed as", "statement": "When a certificate of OpenSSH is read from a line, the name of the type that is reported is the name of the type as which the certificate was parsed.", "quantifier": "all lines and tables of names", "why_tests_cant": "every way to separate the words of a line", "anchors": ["src/ssh.c:wolfSSH_ReadCert_buffer", "src/ssh.c:SniffCertForm", "src/ssh.c:DoOsshCert", "src/ssh.c:DoSshPubKey"]}
{"id": "C153", "title": "The type of a key is that of the first decoder that knows it, and a private key without a public one is never taken for another kind", "statement": "When the type of a key in ASN.1 is told, it is that of the first of RSA, ECDSA on a supported curve, ML-DSA and Ed25519 in the build whose decoder accepts it. A private key whose public key is neither there nor can be computed is refused as such, and no later decoder is asked. An input that none accepts is reported as not supported.", "quantifier": "all builds, private and public keys, and answers of the decoders", "why_tests_cant": "every combination of decoders that accept or refuse the same bytes", "anchors": ["src/internal.c:IdentifyAsn1Key"]}
{"id": "C154", "title": "Telling the type of a key frees every object exactly once", "statement": "While the decoders are tried in turn in the same memory, at most one object is in it at a time, each is freed exactly once and as what it is, and the memory is freed; unless the type is told and the caller wants the key, who then has it with exactly the object of that type in it.", "quantifier": "all builds, and all patterns of failing allocation, initialisation and decoding", "why_tests_cant": "every pattern of failures, and every number of levels tried again", "anchors": ["src/internal.c:IdentifyAsn1Key", "src/internal.c:wolfSSH_KEY_clean"]}
{"id": "C155", "title": "A key or certificate file is read as a whole or not at all", "statement": "Reading a key or a certificate from a file does what reading it from a buffer with all of the file's content does, for keys in the format that the content shows; an empty file, and one of more than 4 MB, is refused.", "quantifier": "all contents of files, of every size", "why_tests_cant": "files of every size, and every text that may look like another format", "anchors": ["src/ssh.c:wolfSSH_ReadKey_file", "src/ssh.c:wolfSSH_ReadCert_file", "src/ssh.c:ReadFileIntoBuffer"]}
{"id": "C156", "title": "The content of a key file does not stay in freed memory", "statement": "Whatever fails while a key or a certificate is read from a file, the file is closed exactly once, the buffer for its content is not overrun, and it is freed exactly once with no byte of the file left in it.", "quantifier": "all files, and all combinations of failing calls", "why_tests_cant": "every point of failure, and files that change while they are read", "anchors": ["src/ssh.c:ReadFileIntoBuffer", "src/ssh.c:wolfSSH_ReadKey_file", "src/ssh.c:wolfSSH_ReadCert_file"]}
{"id": "C157", "title": "The type told for an X.509 certificate is the certificate algorithm of its key", "statement": "A certificate is reported as of a type exactly if it can be decoded, its public key is of that type, and the build has an algorithm for certificates with such keys; otherwise it is refused, and it is never reported under the name of the plain key. Whatever fails, all that was allocated is freed exactly once.", "quantifier": "all builds, certificates, answers of the decoders, and points of failure", "why_tests_cant": "every combination of key types, builds and failures", "anchors": ["src/internal.c:IdentifyCert", "src/internal.c:IdentifyCertKey", "src/internal.c:CertTypeForId"]}
