# Formal model of wolfSSL/wolfssh in Lean 4 — design

## What is here

* `properties.jsonl` — the properties (C01, C02, ...), in terms of the API.
* `lean/Verif/Model/*.lean` — the model: total, computable functions written
  function by function after the C source; every definition cites the file and
  lines it models and says what was simplified.
* `lean/Verif/Spec/*.lean` — small specifications that do not use the model.
* `lean/Verif/Proofs/*.lean` — helper lemmas.
* `lean/Verif/Props/*.lean` — the property theorems, each with an `example`
  showing its hypotheses are met by a concrete non-trivial case.
* `MANIFEST.json` — property → theorems and status.
* `seeded/LOG.jsonl` — mutation experiments on the model.

## Trusted base

* Lean 4.33.0 kernel (and the elaborator for the statements one reads).
* Axioms: only `propext`, `Classical.choice`, `Quot.sound` (Lean's own). No
  `sorry`, no added axiom, no `native_decide`, no `bv_decide`.
* The correspondence C source ↔ model, by reading. The C is not executed.
* Cryptographic primitives (hash, cipher, MAC, signature) are *parameters* of
  the model: arbitrary functions. No theorem assumes them secure.
* Memory allocation is assumed to succeed unless the model says otherwise;
  threads are not modelled (a WOLFSSH object is single-threaded by contract).
* Build configuration modelled: the default feature set (no
  `WOLFSSH_ALLOW_NONE_CIPHER`, no `WOLFSSH_ALLOW_USERAUTH_NONE`, little-endian
  POSIX, `WOLFSSH_FWD`, `WOLFSSH_SFTP`, `WOLFSSH_SCP`,
  `WOLFSSH_KEYBOARD_INTERACTIVE` where a module says so).

## Modelling conventions

* `byte` = `UInt8`; byte buffers = `List UInt8`; `word32` = `Nat` with explicit
  `% 2^32` at every addition/subtraction the C performs in 32 bits, unless a
  guard on the preceding line makes wrap impossible (then said so).
* Error codes are constructors or the negative integers of `wolfssh/error.h`.
* Undefined behaviour (out-of-bounds access) is an explicit outcome (`ub`) in the
  modules that make memory-safety claims; theorems show it is unreachable.
* Application callbacks and the transport are environment inputs: a step takes
  the callback's/transport's answer as an argument, and theorems quantify over
  all answers.

## Plan per property

| id | model | proof |
|----|-------|-------|
| C01 | `Wire`: each reader over (memory, len, cursor) with `ub` outcome | case analysis + arithmetic, all inputs |
| C02 | `Wire` encoders/decoders | round-trip by algebra of big-endian digits |
| C03 | `Wire.createMpint` | value preservation by induction on bytes, canonicity |
| C04 | `NameList.getNameListRaw` loop | refinement to split-on-comma/filter-map spec |
| C05 | `NameList.checkAlgoList` | characterisation against split spec |
| C06 | `Kex.matchIdLists`, negotiation part of `DoKexInit` | first-match spec; the "unknown first name" defect as a witness, `_partial` |
| C07 | `Kex` guess flag + `SkipGuessedKexMsg` | decision logic + one-step machine |
| C08–C10 | `MsgFilter` + session machine | decision logic; invariant by induction over histories |
| C11–C14 | `UserAuth`, `Accept` state machines | invariants over histories |
| C41, C42 | `UserAuth`, `Session` | case analysis of the handlers; `ub` outcome unreachable |
| C15, C45 | `Channel` table | invariant by induction incl. counter wrap |
| C16–C18, C21 | `Channel` | invariants over histories; witnesses for the defects found |
| C19, C20, C22 | `Channel` | invariants over histories; witness for EOF under write stall |
| C23 | `SendPacket` | invariant: delivered ++ pending = queued |
| C24, C25 | `Packet` | arithmetic; round trip with abstract cipher/MAC |
| C26, C39 | `Receive`, `ProtoId` | refinement to a stream parser; witness for read-ahead loss |
| C27–C30 | `Transport` | invariants over histories |
| C31 | `Channel` with keying flag | invariant |
| C32, C46 | `Gex` | order-theoretic spec; the request and the group through the wire readers; soundness and completeness of the check |
| C33 | `Kdf`, abstract hash | induction on blocks; both directions of both sides against RFC 4253 section 7.2 |
| C47 - C51 | `KexDh`, abstract hash, agreement and signatures | both handlers against `hashInput` of the RFCs; soundness and completeness of the key and signature parsers; invariant over histories; injectivity of the encoding |
| C34, C35 | `Path` | refinement to component-list semantics; the in-place loops to list functions, then to pieces |
| C36, C43, C44 | `Channel` | decision logic |
| C37, C54 | `Request` | the readers refine the grammar; case analysis of every type, answer and build option |
| C38 | `Buffer` | invariants |
| C40 | `Path` | arithmetic, induction on the digits |
| C52, C53 | `Path` | the prefix test is component-wise; induction along the walk of the operating system |
| C55 - C61, C64, C65 | `Sftp`, `Posix` | closed forms of the handlers; invariant of the handle tables over histories; the replies against a client's decoder; two runs with different old memory |
| C62 | `Channel` | the effect of a send, for every pattern of flushes |
| C67–C70 | `Keying`, `Client` | invariants over histories of calls and packets, on a log of events; C70 by following the exchange, and an invariant for the client that is stuck |
| C63, C66 | `SftpLoop` | invariant over histories of calls: bytes read = packets handled ++ the part kept, bytes sent ++ the part due = replies |
| C71, C72 | `ScpMsg` | closed forms of the readers on a buffer with arbitrary memory behind it; round trip |
| C73–C76 | `Scp` | invariants over histories; C75 by an invariant that relates the receiver to a peer with a script, and a measure for progress |
| C77, C78 | `ScpSource` | C77 by simulation of a specification of duties; C78 from C77 (a transfer without excuse writes a script) and C75 |
| C79, C80 | `ScpDisk` | invariant on the state of the callback and the file system over any answers to an orderly protocol run (C74, C76); C80 by induction on the tree, with C75 and C78 |
| C81 | `ScpDest` | by the lemmas on cleaned paths of C35 |
| C82 | `ScpSendDisk` | the calls seen in a history are answered by the callback; induction over them with the open directories as invariant, then C78 and C80 |
| C83–C85 | `OsshCert`, `UserAuth` | each reader against the encoding of its field, both ways; induction over the option lists; the handler's log |
| C86–C88 | `SshdKeys`, `SshdCert` | induction over the file against its lines and words; the loop of the expander against an inductive relation; the principals and the address list against encodings and comma-separated entries; prefixes by induction over the bytes, as numbers |
| C89–C91 | `SshdFile`, `SshdConfig` | the walk up the path by induction on its length against the set of directories on the way; the lines of the configuration against the words of the lines, nodes against blocks by induction over the lines, one lemma per keyword; mistakes by cases on the keyword |
| C92–C97 | `SshdAuth`, `UserAuth`, `Session` | the decision by cases against the rules, on top of C86–C91; attempts by induction over the requests; the last event of a session by an invariant of `Reach`; C97 composes C11 with C92–C94 |
| C98, C99 | `SshdSession` | every service by cases over its system calls, each of which may fail; Hoare-style lemmas for groups, root and ids; C98 by cases over requests and forced commands |
| C100–C104 | `SftpClient` | invariants of the transfer machines by induction over the events: buffers (C100); what is sent as a list of requests (C102, C104); what the local file holds, and the conversation with a server that answers properly, for every way the replies are cut (C101, C103) |
| C105–C108 | `KnownHosts` | the loop over the file against a list of entries read by a separate grammar (C105, C106); with the theorem about key exchange replies (C107); destinations against a grammar (C108) |
| C109–C113 | `ClientAuth` | every step by cases over methods and key types, against messages written down separately; induction over runs (C109, C110); the reader of one end applied to the message of the other (C111–C113) |
| C114–C116 | `SftpOps` | invariants of the calls by induction over the events, against packets written down separately (C114); the conversation with a server that answers, for every way the replies are cut (C115); composition with the server theorems of C56 (C116) |
| C117–C119 | `SftpLs` | invariants of `wolfSSH_SFTP_LS` by induction over the events: memory and the order of the requests (C117), the conversation with a server that shows a directory in any number of packets (C118), composition with the server's handlers, run one after the other on the client's requests (C119) |
| C120–C122 | `ClientReq` | the messages written down separately (C120); each composed with the theorems about the receiving end of C54 and C37, for every memory behind the message (C121, C122) |
| C123–C124 | `Setup` | an invariant over any number of calls of `wolfSSH_connect`, with arbitrary stalls of the transport and arbitrary messages of the server |
| C125–C126 | `Modes` | the loop over the bytes against a separate reading of them, then for each mode the last value told (C125); composition with what the client writes, for different platforms at the two ends (C126) |
| C127–C129 | `Agent` | every handler against the grammar of the message, with the soundness of the identities as an invariant over calls (C127, C128); composition with an agent that follows the protocol (C127_agent); case analysis of the callbacks (C129) |
| C130 | `ServerSetup` | an invariant over any number of calls of `wolfSSH_accept`, with arbitrary stalls of the transport and arbitrary effects of what is received |
| C131, C132 | `HostKeys` | refinement: after any history of calls the table of keys is the one a map from types to the last key and certificate determines, with the order of first loading; the offered names follow by a fold that is never cut off |
| C133, C134 | `SshdShell` | invariants by induction over the turns of the relay: written = sent, held and in the pipe; received = handed over and waiting; a measure for its end; witnesses for what is lost |
| C135 | `PemBundle` | grammar: a file is rendered from lines, blocks and cut off blocks, and induction over it shows that the walk hands over its blocks; an invariant on the cursors and a measure for any input |
| C136 | `OsshKey` | round trip in both directions: what is accepted is the encoding of a file of the specification, and every such file is accepted; induction over the strings of a key |
| C137 | `OsshKey` | case analysis of every reader with the state of the objects; composition through the reader of the file |
| C138 | `ReadKey` | the words of a line and the body of a file are characterised by their grammar, and the functions shown to find exactly them; case analysis of every format in both directions |
| C139 | `ReadKey` | case analysis of every path with the contents of the caller's buffer, and the allocations counted |
| C140 | `CertMan` | invariant over all histories that what the manager holds is trusted by an inductive definition; the loop over the chain by induction; parser of RFC 6187 messages against the encoding |
| C141 | `CertMan` | completeness of the loop by induction along the links; the three worksheets against a separate structure, by case analysis |
| C142 | `Composite` | the parser of the parts against their encoding, both directions; names without NUL bytes for the binding |
| C143 | `Composite` | what signing writes is put into the form that C142 demands; sizes by case analysis of the combinations |
| C144 | `TransMsg` | readers of a payload against the fields of RFC 4253 section 11 by inversion of each reader; the heap of `DoDebug` as a list of calls |
| C145 | `TransMsg` | what the senders write is put into the form that C144 demands; `_partial`: `wolfSSH_SendIgnore` drops its data |
| C146 | `CertKey` | what is written field by field is the string of `Spec.CertKey.keyBlob`, by induction over the fields; read back with the parser of C140 |
| C147 | `CertKey` | case analysis over the calls after the verification of C140; `_partial`: the curve is not compared |
| C148 | `SshdSetup` | each step of `SetupCTX` against its own condition, then put together; the forms of keys exclude each other by their first byte |
| C149 | `SshdSetup` | the life of each block over the list of effects, one segment per step; `_partial`: a short read of the key's file |
| C150 | `SshdPid` | cases over what stands at the name and over the calls; `_partial`: a new file that cannot be examined or is not the daemon's is left empty |
| C151 | `ReadCert` | the form that is sniffed is that of the specification, both ways; cases over the decoders, with the lemmas of `ReadKey` |
| C152 | `ReadCert` | the two splittings of the line give the same word; `_partial`: not with a tab or a carriage return in the word |
| C153 | `IdentKey` | each block takes, refuses or passes on the key as its specification says; the first decision stays; the specification has one answer |
| C154 | `IdentKey` | the trace of the union is run through an automaton; induction over the levels of ML-DSA |
| C155 | `ReadFile` | the format is that of the specification; then as `readKey` and `readCert`; `_partial`: not for files of 4 GB and more |
| C156 | `ReadFile` | the trace of the file and the buffer is run through an automaton, for all answers of the calls |
| C157 | `IdentCert` | the answer follows from C153 for the key; the trace is run through an automaton |

## Modules

| module | code modelled | left out |
|--------|---------------|----------|
| `Model/Wire` | src/internal.c readers `GetBoolean` .. `GetStringAlloc`, `c32toa`, `CreateMpint` | - |
| `Model/NameList` | name lists, `CheckAlgoList` and the setters | - |
| `Model/Kex` | the negotiation part of `DoKexInit`, `SkipGuessedKexMsg` | the hash of the messages |
| `Model/MsgFilter` | `IsMessageAllowedServer/Client` | logging |
| `Model/UserAuth` | the server's user authentication handlers, OpenSSH certificates included | X.509 certificates, ML-DSA, the 'none' method build option |
| `Model/Buffer` | `BufferInit`, `GrowBuffer`, `ShrinkBuffer`, `AppendBuffer` | scrubbing of released memory |
| `Model/Session` | `wolfSSH_accept`, `DoPacket`, `DoReceive` for a server | kex and connection handlers are arbitrary effects limited to the values they can write; SCP/SFTP/agent start-up |

| `Model/Channel` | the channel list, `DoChannelOpen` .. `DoChannelExtendedData`, window credit, `SendChannelOpen` .. `SendChannelWindowAdjust`, the channel functions of src/ssh.c | the fields a forwarding callback gets; `WS_CHANNEL_CLOSED` handling in the stream functions; whether a send may be retried is a free choice of the environment |
| `Model/Packet` | algorithm tables, `PreparePacket`, `BundlePacket`, `CreateMac`, `Encrypt`, `EncryptAead`, the nonce counter, `wolfSSH_SendPacket`, `SendProtoId`, key installation of `SendNewKeys`, `HighwaterCheck` | `ssh->error` and the closed flags; a failing primitive is taken to leave its output as it was |
| `Model/Receive` | `GetInputData`, `DoReceive`, the packet part of `DoPacket`, `VerifyMac`, `Decrypt`, `DecryptAead`, the version exchange (`GetInputLine`, `DoProtoId`), the drop of a held packet in `wolfSSH_accept`/`wolfSSH_connect` | the handlers are arbitrary functions of an application state (result, bytes consumed, new keys); `ssh->error` mapping; a receive callback that returns 0 for ever |
| `Model/Gex` | `SelectKexDhGexGroup`, `GetDHPrimeGroup` for group exchange, `SendKexDhGexRequest`, `DoKexDhGexRequest`, `SendKexDhGexGroup`, `DoKexDhGexGroup`, `ValidateKexDhGexGroup`, the values hashed | state after a failed request; failures of the big number library other than "not prime" |
| `Model/Kdf` | `GenerateKey`, `GenerateKeys` | the variant that calls wolfCrypt's own SSH KDF (FIPS builds); the hash is an abstract function that may fail |
| `Model/KexDh` | the hash part of `DoKexInit`, `DoKexDhInit`, `SendKexDhReply`, `SendKexGetSigningKey`, `SendKexDhInit`, `DoKexDhReply`, `ParsePubKey` and the parsers under it | X.509/OpenSSH certificates, TPM keys; a memory failure is not told apart from a library failure; the packet layer; import, agreement, signing and verification are arbitrary functions |
| `Model/Path` | `wolfSSH_RealPath`, `wolfSSH_CleanPath` (POSIX branch), `wstrncat`, `CanonicalizePath`, `GetAndCleanPath`, `AddAssign64`, `wolfSSH_oct2dec` | the writes of `strtok_r` into its input; memory failure in `wolfSSH_CleanPath` and `StorePath` |
| `Model/Request` | `DoGlobalRequest`, `DoGlobalRequestFwd`, `SendRequestSuccess`, `SendGlobalRequestFwdSuccess`, `DoChannelRequest`, `SendChannelSuccess` | failing allocations; logging |
| `Model/Posix` | the file system calls the SFTP server makes | the file system itself: results are inputs |
| `Model/Sftp` | the request handlers of src/wolfsftp.c (`wolfSSH_SFTP_RecvRealPath` .. `RecvReadDir`), handle tables, status and name replies, the dispatch | the client side; other file system ports; `WOLFSSH_STOREHANDLE`; more than 4 million entries in a directory |
| `Model/SftpLoop` | `wolfSSH_SFTP_read`, `SFTP_GetHeader`, `wolfSSH_SFTP_buffer_read`, `wolfSSH_SFTP_buffer_send`(`_finish`), `wolfSSH_SFTP_accept`, `SFTP_ServerRecvInit`, `SFTP_ServerSendInit` | what `wolfSSH_worker`, `wolfSSH_stream_read` and `wolfSSH_stream_send` return is an input; the buffer a failed handler leaves behind |
| `Model/Keying` | `isKeying`, `handshake`, keys in use: `SendKexInit`, `DoKexInit`, `SendKexDhInit`, `SendKexDhGexRequest`, `SendKexDhGexGroup`, `DoKexDhInit`, `DoKexDhReply`, `DoKexDhGexRequest`, `DoKexDhGexGroup`, `SendKexDhReply`, `SendNewKeys`, `DoNewKeys`, key exchange part of `DoPacket`, `DoReceive` | keys are named by the number of their exchange; results of parsing, memory, cryptography and transport are inputs; the highwater callback is the default one |
| `Model/Client` | `wolfSSH_connect`, `DoServiceAccept`, `DoUserAuthFailure`, `DoUserAuthSuccess`, `DoUserAuthInfoRequest` and the rest of `DoPacket` by what they send and how they change `serverState` | contents of messages |
| `Model/ScpMsg` | the control messages of SCP: `ReceiveScpMessage` once a line is there, `GetScpFileMode` .. `GetScpTimestamp`, the texts of `SendScpFileHeader` .. `SendScpExitDirectory` | - |
| `Model/Scp` | `DoScpSink`, `ReceiveScpMessage`, `ReceiveScpFile`, `SendScpConfirmation`, `ReceiveScpConfirmation` | results of the transport are inputs (a read gives what the channel holds, up to the length asked for); an error other than "try again" ends the run; the text of an error confirmation |
| `Model/ScpSource` | `DoScpSource`, `SendScp*`, `ReceiveScpConfirmation` on the sending side | answers of the callback and results of the transport are inputs; the text of an error message, the closing of the stream at the end, allocation |
| `Model/ScpDisk` | the default receive callback `wsScpRecvCallback` and the file system calls it makes (`WCHDIR`, `WLSTAT`, `WFOPEN`, `WMKDIR`, `WFWRITE`, `fflush`, `futimes`, `WFCLOSE`) on a tree of places | hard links, permissions checks, links in the middle of a path are followed up to the point where `walk` gives up; other processes act between calls only |
| `Model/ScpDest` | `ParseScpCommand`, `ScpCheckForRename`, `ParseBasePathHelper`, `MakeScpCmd`, the destination of `wolfSSH_SCP_from` | allocation; whether the directory opens is an input |
| `Model/ScpSendDisk` | src/wolfscp.c 2185-2217, 2709-3222, 3317-3561: the default send callback on POSIX with symbolic links, and `DoScpSource` with it | what a path leads to is an input of each call; a single file is a regular one; other systems, allocation failure |
| `Model/OsshCert` | src/ossh.c 747-1482: `OsshCertParse`, `OsshCertCheckType`, `OsshCertCheckOptions`, `OsshCertVerifySignature`; the certificate branch of `DoUserAuthRequestPublicKey` | key import and signature arithmetic are arbitrary functions; allocation failure; SHA-1 signatures of an RSA authority (off by default); the build has all of RSA, ECDSA and Ed25519 |
| `Model/SshdKeys` | apps/wolfsshd/auth.c 256-338 `CheckAuthKeysLine`, 897-1053 `ExpandAuthKeysTokens`, `ResolveAuthKeysPath`, 1273-1354 `SearchKeysFile`, 1437-1459 `SearchForPubKey` | `Base64_Decode` is an arbitrary function, opening the file an input; `strtok_r` and `fgets` as in the C library; POSIX only |
| `Model/SshdCert` | auth.c 1483-1732: principal, validity and source-address checks | `inet_pton` is an arbitrary function |
| `Model/SshdFile` | auth.c 1055-1270 `wolfSSHD_OpenSecureFile`, POSIX | the answers of `lstat`, `realpath`, `open`/`fstat` and `stat` are inputs; `fdopen` succeeds |
| `Model/SshdConfig` | apps/wolfsshd/configuration.c 127-1551: strings, numbers, the option table, `HandleConfigOption` and its handlers, `Match`, `Include` with wildcards, `ConfigLoad`, `wolfSSHD_GetUserConf` | `long` is unbounded; no allocation failures; the fields that no option sets are left out; the directory listing is an input |
| `Model/SshdAuth` | apps/wolfsshd/auth.c 664-885 passwords, 1461-1481, 1735-1830 `CheckPublicKeyUnix`, 2200-2373 root and UPN rules, 2467-2843 `RequestAuthentication` and offered methods, 3006-3023, 3437-3485 | libcrypt, no PAM, no Windows; user database, `crypt`, clock, files, X.509 names and the success of changing rights are inputs that stay the same during one request; the dummy hashes for unknown users (timing only) are left out |
| `Model/SshdSession` | apps/wolfsshd/wolfsshd.c 615-722, 771-836, 1522-1787, 2226-2300, 2427-2570; auth.c 3048-3195 permissions and forced commands, 3222-3310, 3388-3420 groups; src/ssh.c 721-738 and src/wolfscp.c 1009-1024 how `wolfSSH_accept` ends | POSIX; whether a system call succeeds is an oracle over its number and arguments, a successful call has its POSIX effect on ids, groups, root and working directory; the relay loop, terminals, signals, the SFTP and SCP services themselves and allocation failures are left out |
| `Model/SftpClient` | src/wolfsftp.c 551-661, 716-797, 1030-1083, 6661-6928, 7310-7457, 7689-7842, 8035-8659, 8880-8983, 9609-10212: the client's Get and Put with the requests they use | one step is one call of a lower layer, whose outcome and `ssh->error` are arbitrary; a function that keeps its state is called again; allocations succeed; error codes of the SFTP layer are not told apart; the states of STAT and Close do not outlive a transfer; the progress callback, the other client calls |
| `Model/SftpOps` | src/wolfsftp.c 7627-7686, 7689-7845, 7848-8030, 8665-8818, 9190-9605: the client's CHMOD, STAT, LSTAT, SetSTAT, MKDIR, Rename, Remove, RMDIR | as `Model/SftpClient`; a call that keeps its state is called again with the same arguments; attributes with the extension flag are excluded by a hypothesis (`Sane`); allocation succeeds |
| `Model/SftpLs` | src/wolfsftp.c 7064-7279, 7481-7619, 8822-8872, 9130-9181: the client's LS with DoName, ReadDir, RealPath, OpenDir | as `Model/SftpClient`; what a given-up listing leaves in `ssh->realState`, `readDirState` and `nameState` is not carried into the next one; an empty list stands for `NULL`; allocation succeeds |
| `Model/KnownHosts` | apps/wolfssh/common.c 73-118, 127-178, 193-283, 332-344, 351-602, 927-1053: the example client's host key check and destinations | allocations succeed; nobody else changes the file meanwhile; Base64, the fingerprint, X.509 parsing, file system and user are inputs |
| `Model/ClientAuth` | src/internal.c 8285-8386, 10476-10700, 17137-17200, 17379-17700, 17880-18160, 18420-18575, 18820-19520: the client's user authentication; 17031-17088, 17187-17283, 19521-19613: the server's messages for it; src/ossh.c 789-814 | X.509 and ML-DSA keys left out; loading keys and signing are arbitrary functions; allocations succeed; packets are payloads with the size said to `PreparePacket`; the pointers of the key data are values |
| `Model/ClientReq` | src/ssh.c 1395-1435, 1575-1720, 3604-3679; src/internal.c 8034-8063, 16796-16896, 20154-20206, 20559-20675, 20871-21143: the requests a client sends | that a packet can be queued and sent is an argument; the terminal's size, `TERM` and the bytes of the modes are inputs; POSIX |
| `Model/Setup` | src/ssh.c 824-862, 996-1100 the end of `wolfSSH_connect`, 3414-3420; src/internal.c 11839-11905 | messages are their kinds; what a write does and what a receive brings are arguments of each call; earlier stages of `wolfSSH_connect` are those of the other modules; an application stops at the first error other than WANT_READ and WANT_WRITE |
| `Model/Modes` | src/internal.c 11333-11598, 20677-20868; wolfssh/internal.h 566-567, 2058-2117: terminal modes | POSIX; what `<termios.h>` defines is a parameter, also different ones at the two ends; the server's terminal can be read and set |
| `Model/Agent` | src/agent.c 60-1545, 1759-1971: messages of the agent protocol, asking for a signature, relaying | SHA-256 and signing are chosen by the environment (with signatures that fit their buffer); allocations succeed; NULL arguments are left out; `wolfSSH_AGENT_new`/`_free` and the identity allocations are not modelled |
| `Model/ServerSetup` | src/ssh.c 559-815 `wolfSSH_accept` | messages are their kinds; what a write does and what a receive changes (`clientState`, `isKeying`, `useAgent`, the kind of session) are arguments of each call; memory does not run out; SCP and SFTP after the hand-over are those of the other modules |
| `Model/HostKeys` | src/internal.c 1296-1305, 2316-2646, 2925-3108 for private keys and certificates, 15753-15761; src/ssh.c 3176-3208 | the decoders of PEM, ASN.1 and OpenSSH and of the key in a certificate are arguments; allocation of the copied key is an argument, other memory does not run out; the formats that are refused at once are left out; no TPM |
| `Model/SshdShell` | apps/wolfsshd/wolfsshd.c 1437-1514, 1818-2158 | start of the child, privileges, terminal size and exit status; Windows; the library under it is what its calls report: a worker call, reads and sends; the child's stdin does not block for good; `errno` is any value after a read that does not set it |
| `Model/PemBundle` | src/internal.c 2718-2736, 2761-2924 | decoding of a block (`wc_PemToDer`) and the certificate manager are choices of the environment; headers and footers are wolfSSL's strings; a missing certificate manager |
| `Model/OsshKey` | src/ossh.c 60-383, 526-741; src/internal.c 1834-1891, 2217-2243, 3430-3486, 21503-21614 (sizes) | the variant for wolfSSL after 5.7.0; imports and initialisations of wolfCrypt are choices of the environment; public keys for a TPM (src/ossh.c 385-520) are not modelled |
| `Model/ReadKey` | src/ssh.c 1810-2345; src/internal.c 2186-2215, 3575-3620; src/port.c 840-856 | without `WOLFSSH_TPM`; decoders and the functions that tell a type are parameters, and a decoder is assumed to keep to the capacity it is given; the contents of allocated buffers that are freed are not modelled |
| `Model/CertMan` | src/certman.c 174-644; src/internal.c 6257-6369 | the certificate manager of wolfSSL is a list of certificates; its answers (verification, loading, OCSP, decoding) are parameters, assumed sound (C140) or complete (C141); loading adds exactly the certificate that was given; years are `tm_year`; the length of `certLoc` is as counted |
| `Model/Composite` | src/internal.c 21503-22769 (without the imports into objects, allocation, and `ParseMlDsaCompositePubKey`) | hashes and signatures of wolfCrypt are parameters; keys are the bytes that are imported; all algorithms compiled in, `WOLFSSH_SMALL_STACK` not defined; `wc_ecc_sig_to_rs` does not give an empty number |
| `Model/TransMsg` | src/internal.c 8028-8032, 8066-8226, 16685-16793, 16898-16950, src/ssh.c 1473-1489 | `PreparePacket` and `BundlePacket` are in `Model/Packet`; texts are logged whole (the log cuts them) |
| `Model/CertKey` | src/internal.c 5169-5190, 6374-6535, 6542-6614 (algorithms with certificates), 6621-6690, 13578-13685, 14416-14442 | decoding by wolfCrypt, allocation and initialisation are inputs; codes of wolfCrypt are one code |
| `Model/SshdSetup` | apps/wolfsshd/wolfsshd.c 235-609 (POSIX, with a filesystem), auth.c 1355-1434 | functions of wolfSSH and wolfCrypt and whether a file passes `wolfSSHD_OpenSecureFile` are inputs; logging and the callbacks that are always set are left out |
| `Model/SshdPid` | apps/wolfsshd/configuration.c 1844-1936, POSIX | which system calls succeed is an input; nobody else changes the directory meanwhile; an existing name makes the first `open` fail with `EEXIST` |
| `Model/ReadCert` | src/ssh.c 2345-2604; src/internal.c 2742-2757 | `OsshCertParse`, `IdentifyCert`, `IsTrustedCertPem`, `wc_CertPemToDer` and base64 are parameters; pointers are not NULL; the PEM decoder stays within its buffer |
| `Model/IdentKey` | src/internal.c 1832-1891 (types without certificates), 1893-2169 | the answers of wolfCrypt are inputs; contents of the objects are not modelled |
| `Model/ReadFile` | src/ssh.c 2611-2770, POSIX | the answers of `fopen`, `fseek`, `ftell` and `fread` are inputs; pointers are not NULL |
| `Model/IdentCert` | src/internal.c 2252-2317, 2365-2433 | the answers of wolfCrypt are inputs; the type of the key is told as in `Model/IdentKey` |

## Disagreements between code and property

Each is a theorem about the model (a witness), next to the part that holds.

* C06: two lists that both start with an unsupported name are refused although a common name
  follows (`C06_unknown_first`).
* C07: a client that throws away a wrongly guessed message then refuses the real one
  (`C07_client_skip_then_refused`).
* C10: a server that is keying and expects nothing in particular lets any of 21-34 through,
  including the numbers only a server sends (`C10_server_unexpected_witness`).
* C12: bytes after the signature extend the verified range (`C12_trailing_witness`). The length of
  the signed part is computed from the end of the packet.
* C13: `authRequests` wraps, so the free 'none' probe comes back every 2^32 requests. The bound
  proved accounts for it.
* C38: `GrowBuffer` computes the new size in 32 bits (`C38_grow_wrap_witness`), and `ShrinkBuffer`
  moves bytes inside the static buffer with `memcpy` (`C38_shrink_overlap_witness`).
* C41: an information response is accepted although the setup was refused and no request was sent
  (`C41_unsolicited_witness`).
* C16: during a key exchange a read opens the local window while the credit is parked, so the peer
  may send more than it was told (`C16_parked_credit_overrun`). The buffer still cannot overflow.
* C17: `wolfSSH_ChannelIdRead` returns the error of the window adjustment instead of the bytes it took
  (`C17_stalled_read_loses_bytes`); `wolfSSH_stream_read` reports EOF with bytes waiting
  (`C17_eof_hides_data`).
* C20: an EOF queued while the socket is full is not recorded, and data follows it
  (`C20_stalled_eof_then_data`).
* C21: `wolfSSH_stream_read` credits before it consumes; a read of a full window leaves the peer with
  no window and the next read waits for data (`C21_stream_read_starves`).
* C31: EOF is sent during a key exchange (`C31_eof_during_rekey`).
* C36: a client accepts a session channel from the server (`C36_client_accepts_session`).
* C43: `wolfSSH_ChannelExit` goes by the peer's number and can end another channel
  (`C43_exit_ends_another`).
* C44: `wolfSSH_shutdown` looks the peer's number up among its own; if the numbers differ it sends
  nothing and reports success (`C44_shutdown_silent`).
* C23: a packet whose bundling fails (random generator, cipher) is not taken back by most senders:
  header and unencrypted payload stay in the output buffer and go out with the next flush
  (`C23_failed_packet_leaks_witness`). Only some senders call `PurgePacket`.
* C30: the byte counters wrap at 2^32; an amount beyond it between two checks goes unnoticed
  (`C30_wrap_witness`).
* C26: `GetInputLine` reads up to 255 bytes; packets that came along behind the version line are
  dropped once the first of them is processed, because the input buffer is emptied after each packet
  (`C26_read_ahead_witness`).
* C28: a packet put off with `WS_AUTH_PENDING` is dropped uncounted when `wolfSSH_accept` first has
  output to flush; the next packet then fails its MAC (`C28_dropped_witness`).
* C39: without memory for the peer's identification the call fails but the exchange counts as done; a
  second call goes on without the identification (`C39_memory_witness`). C39 itself holds.
* C34: with a buffer of one byte `wolfSSH_RealPath` writes the terminator behind it (`C34_one_byte`).
* C35: `wolfSSH_CleanPath` keeps a leading "/.." and a trailing "/." (`C35_dotdot`, `C35_dot`), takes
  ':' for the begin of a segment on POSIX systems too (`C35_colon`), and makes some relative paths
  absolute (`C35_relative`).
* C37: a client answers a server's forwarding request like a server would (RFC 4254 section 7.1 wants
  it refused); nothing in the model depends on the side. C37 as stated holds.
* C54: an exec or subsystem request whose command cannot be read fails, but the application's callback
  is called first, with the previous command or none, and the handshake counts as finished
  (`C54_exec_called_anyway`); a second program start on a channel succeeds (`C54_second_succeeds`); a
  refused request finishes the handshake (`C54_refused_done`). An agent request is answered with success
  even if no agent callback is set (part of `C54_reply`/`C54_effect`).
* C31: the flush before channel data may reach the high-water mark and start a key exchange; the data is
  then queued behind SSH_MSG_KEXINIT (`C31_data_after_kexinit`).
* C62: `SendChannelData` first flushes what is pending. If that stalls (`WS_WANT_WRITE`) and the pending
  output is not a packet of its own data, it reports all bytes as sent, but has queued none
  (`C62_lost`).
* C56: SETSTAT and FSETSTAT answer OK without applying a size, owner or times (`C56_setstat_lie`).
* C58: READDIR calls `lstat` on ".." of the jail and tells the client its attributes (`C58_dotdot`).
* C61: a listing ends without notice at the first entry whose path has 256 bytes or more
  (`C61_truncated`). With some 38 million entries the size of the reply wraps at 2^32; the model excludes
  directories with more than 4 million.
* C64: no reply to READ of more than 32768 bytes, FSTAT and READDIR with an unknown handle, CLOSE with a
  handle of more than 256 bytes, OPEN, OPENDIR, MKDIR, REMOVE and REALPATH with an over-long path
  (`C64_silent` and the definition `Silent`), nor to malformed bodies.
* C63: a wrong packet length together with an old "data arrived" code makes the application go on and the
  server read the body of the packet as packets (`C63_stale`); a reply may get lost (`C63_lost`). Without
  memory for a body the server goes on behind the header (not in the theorems: the call counts as failed).
* C66: a window too small for VERSION makes `wolfSSH_SFTP_accept` return the number of bytes sent; the
  next call sends the whole packet again (`C66_garbage`).
* C68: the server's message filter lets NEWKEYS through whenever the peer is keying. After a KEXINIT that
  failed, an application that goes on receiving lets the client put keys in use that were never derived
  (`C68_after_an_error`). C68 is about applications that stop at an error.
* C69: `wolfSSH_TriggerKeyExchange` and the default highwater callback do not look whether an exchange is
  under way (`C69_refuted`); a call between own and the peer's NEWKEYS loses the session
  (`C69_trigger_loses_the_session`). `SendNewKeys` clears the flag of own keying after the flush that may
  have sent another KEXINIT.
* C70: a client answers KEXINIT with KEXDH_INIT only in `CONNECT_SERVER_CHANNEL_REQUEST_DONE`
  (src/internal.c:12196-12209) or in the first exchange. A server that rekeys while `wolfSSH_connect` is at user
  authentication or channel setup waits for ever (`C70_client_stuck`, `C70_refuted`).
* Noticed on the way, outside of the statements: without memory `DoKexInit` fails and `DoPacket` on a connected client goes on
  to read the missing `handshake` (undefined behaviour in the model); a connected client answers a KEXINIT
  that failed to parse with KEXDH_INIT; after a wrongly guessed packet was skipped a client does not wait for the
  right one and refuses it; `DoKexInit` may return an old error code; a client takes USERAUTH_SUCCESS before it
  asked, and prompts without having asked for them; packets of the connection protocol are taken in the
  middle of an exchange.
* C73: `ReceiveScpMessage` returns 0, which is success, when a read gives no bytes (`sz <= 0` → `return sz`,
  src/wolfscp.c:1747-1752 and 1765-1770); an empty CHANNEL_DATA is enough. `DoScpSink` then acts on the type and the
  fields of the message before: it opens the last file again (which truncates it in the default callback), or at the
  start a file with a NULL name (`C73_empty_opens_nameless`, `C73_empty_repeats`).
* C75: `ReceiveScpConfirmation` reads up to 1024 bytes to get one. The receiver confirms a file before it has read the zero byte
  at its end, so the peer's next message may already be in the channel; it is read with the zero byte and thrown away
  (`C75_next_message_lost`). Data on the error stream and reads of no bytes count as a good confirmation
  (`C75_confirmation_unread`). Times of a directory are also used for a file that has none (`C75_times_stay`).
* C76: `SendScpConfirmation` sends 0 for every answer that is not `WS_SCP_ABORT` (src/wolfscp.c:1903-1914), so a callback that
  returns, say, -1 in the middle of a file ends the transfer with the peer told that all is well.
* C77: on the sending side too, data on the error stream and reads of no bytes count as a confirmation
  (`C77_unread_confirmation`). An abort of the callback in the middle of a file puts the error message into the data stream.
* C78: nothing holds the sending callback to the size it announced (src/wolfscp.c, `SendScpFile`); a file that grows while it
  is sent, or one of 4 GiB or more whose size is announced modulo 2^32, makes the receiver take its contents for messages and
  create other files (`C78_grown_file_makes_another`). A newline in a name goes into the header (`C78_newline_in_name`).
  The offset given to the callback is 32 bits wide.
* C79: an empty data message at the start makes the default callback open a file whose name is NULL (`C79_nameless`). The test for
  a link and the opening are two calls (a race with other local processes, not in the model).
* C80: permissions announced for a file are not used (`C80_file_mode_ignored`), nor are the times of a directory
  (`C80_dir_times_ignored`). The result of `fclose` is ignored, so data that could not be written is confirmed to the peer
  (`C80_lost_at_close`); with times, `fflush` is checked. Times of 0 and 0 count as none.
* C81: `ScpCheckForRename` cuts the path at the length of the cleaned parent, although the path itself is not cleaned on a
  client and a relative path has a parent of another length: "file.txt" becomes the directory "f" and the name "ile.txt",
  "/a//b/c" the name "/c" (`C81_wrong_place`; then the file goes to the root directory, `C79_name_is_a_path`). "/" is refused
  (`C81_root`). On a server the delimiter at the end is cleaned away first, so a copy into a directory becomes a copy to a
  file of that name (`C81_into_directory`). `ParseScpCommand` goes on looking for options inside the path
  (`C81_option_in_path`). `wolfSSH_SCP_from` writes a terminator into the caller's `const` path.
* C82: `ScpPopDir` looks for the last '/' or '\\' in all 1024 bytes of `dirName`. A directory with a backslash in its name is not
  cut off in full, and the entries after it are taken from another directory (`C82_backslash_in_directory`); with a context used
  for a second transfer, bytes of the first one behind the terminator do the same (`C82_second_transfer`). `ScpProcessEntry`
  returns 0 for what is neither file nor directory: it is announced with the size of the file before it, and the transfer
  fails (`C82_pipe_in_directory`). One link in a tree ends the transfer of all of it (`C82_link_in_directory`; this is
  deliberate). A path with a separator at the end is sent as a directory without a name (`C82_no_name`), which a receiver
  refuses. Sizes are modulo 2^32 (`C82_size_wraps`, see C78 for what follows).
* C85: bytes after the fields of an authority's key or signature are not looked at, and neither is the type name inside an ECDSA or
  Ed25519 signature (`C85_trailing_witness`), so one signed certificate has many encodings. The signed part itself is exact.
* C86: a line of a keys file that cannot be read (one word only, tabs instead of blanks, an empty line with a carriage return) ends
  the search, and keys listed after it are not found (`C86_malformed_witness`); a line longer than the buffer is read in pieces, so the
  tail of a comment can authorize a key (`C86_long_comment_witness`). What is found always stands in the file (`C86_present`).
* C87: the pattern `%h%u` can name the same file for two users with different home directories (`C87_collision_witness`).
* C88: a source-address list that ends with a comma is accepted (OpenSSH refuses it), and an entry is cut at a NUL byte
  (`C88_list_witness`).
* C90: keywords are compared as prefixes of the line, so `HostKeyAlgorithms x` sets the host key file to `Algorithms`
  (`C90_prefix_witness`); the tail of a line over 159 bytes, even of a comment, is read as a line (`C90_long_line_witness`); a block
  in an included file does not get the settings for everybody that follow the `Include` line (`C90_include_witness`): with
  `Include blocks` before `PasswordAuthentication no`, users of the included block can still use passwords. Differences from OpenSSH
  that the specification has built in: the last line of a keyword counts, only the first block that applies counts, a
  list of names in a `Match` line is one literal name (`C90_openssh_witness`). A `*` at the start of an `Include` value is not a wildcard,
  and `/*.conf` is looked up in the current directory.
* C92: whether a password is empty is judged by its length, but it is hashed as a C string. With `PermitEmptyPasswords no`, the password
  consisting of one NUL byte logs in to an account with an empty hash (`C92_nul_witness`), and bytes after a NUL never count.
* C93: `StrictModes` is read from the first node of the configuration, so a `Match` section cannot change it for a user, although the
  parser accepts it there (`C93_strict_witness`).
* C96: the answer `WOLFSSH_USERAUTH_REJECTED` to `WOLFSSH_USERAUTH_KEYBOARD_SETUP` is an ordinary failure (`C96_setup_witness`), while
  wolfssh/ssh.h:464 promises that a rejection ends the session.
* C98: `ForceCommand` is enforced for shells and commands only: a user other than root gets SFTP and SCP all the same
  (`C98_force_witness`). It also replaces the command a certificate forces, so a certificate for `internal-sftp` only can give a program
  (`C98_mask_witness`). A shell whose path has 80 bytes or more is replaced by the file named by its first 79 bytes
  (`C98_long_shell_witness`), and any command that begins with `scp` is taken for SCP (`C98_scp_prefix_witness`).
* C99 (observation): the relaying process of a shell drops its ids but keeps the supplementary groups of the daemon, and is outside the
  configured root directory (first example of Props/SshdSession.lean).
* C101: `wolfSSH_SFTP_SendReadPacket` reads the length of a piece with one `wolfSSH_stream_read` and takes any positive count: if fewer
  than four bytes are there the rest of the length is uninitialized memory, and the file is wrong with success (`C101_cut_length`). A
  reply without a body, or with status OK, is taken for the end of the file (`C101_empty_packet`). The length of a piece is not compared
  with the length of its packet. An empty piece is an error.
* C102: `wolfSSH_SFTP_Put` ends in success whatever ended its loop: a refused write (`C102_refused`), a failed `fread` (`C102_unread`), a
  fatal error of the channel (`C104_cut_write`). A resumed store opens the remote file with TRUNC, so what was stored before is lost and
  reads as zeros (`C102_resumed`, `C102_resumed_case`). If the write is refused while `ssh->error` still holds a notice, it is sent again.
* C103: `wolfSSH_SFTP_SaveOfst` takes the first free slot even if there is an offset under the same names, and `wolfSSH_SFTP_GetOfst`
  returns the first: after two interrupted fetches the older offset is used and bytes are appended twice (`C103_older`).
* C104: a fatal error in the middle of a write is followed by the request to close (`C104_cut_write`); `wolfSSH_SFTP_Close` sends its
  request again if a notice is pending behind it (`C104_closed_twice`); `wolfSSH_SFTP_Open` forgets a half-sent request when the notice
  is not WANT_READ or WANT_WRITE, and `wolfSSH_SFTP_Get` starts it over (`C104_open_restarted`).
* C105: if built with certificates, `ClientPublicKeyCheck` with the option to ignore addresses sets its result to success for every host
  key with a certificate, whatever the file of known hosts or the user said (`C105_override`). The file is read as exact names: hashed
  names, patterns, `[host]:port`, `@revoked` and `@cert-authority` are not understood, and the port is no part of the name. A missing or
  empty file refuses every server, so the first key has to be put there by hand (`C105_empty`).
* C106: `ClientPublicKeyCheck` reads the file as a C string, so entries behind a NUL byte do not count (`C106_nul`).
* C109, observations: the sizes given to `PreparePacket` are short by 5 bytes for RSA keys and 8 for keyboard-interactive requests
  (`PrepareUserAuthRequestRsa` and the lack of a term for the two empty strings); harmless with the padding of 16 byte blocks (`C109_size`).
  `PrepareUserAuthRequestPublicKey` compares every key with the server's list, so a server that sends no `server-sig-algs`, as RFC 8308
  allows, gets no public key request at all, not even for Ed25519 (`C110_unannounced`); a second attempt with another key is impossible
  in a session. `DoUserAuthFailure` reads the list of methods into four entries and fails on longer lists with WS_BUFFER_E.
* C110: `DoUserAuthInfoRequest` does not look whether keyboard-interactive was requested: the server's prompts are shown and answered at
  any time during authentication (`C110_unasked`).
* C114: `wolfSSH_SFTP_CHMOD` keeps its state only for WANT_READ and WANT_WRITE, while the SETSTAT below it keeps its own for every notice.
  Called again after a full window, a rekeying or data on another channel it sends a STAT in the middle of the SETSTAT packet
  (`C114_chmod_mixed`), and reads the answers in the wrong order.
* C115: `wolfSSH_SFTP_CHMOD` sends back all the attributes the server gave, with the new mode put in; a server that gave no mode is
  asked for nothing and the call succeeds (`C115_chmod_nothing`). `wolfSSH_SFTP_Rename` takes any packet that ends after its id for a
  success (`C115_rename_empty`).
* C118: `wolfSSH_SFTP_LS` ends on any status behind the names and on any NAME packet it cannot read, and returns what it has: a server
  that fails in the middle makes a listing that looks whole (`C118_failure`). An empty directory gives `NULL` like a failure
  (`C118_empty`). A NAME packet of more than 1 MiB is refused but its body is left in the channel, where the next reply is read
  (`C118_big`). A notice other than WANT_READ, WANT_WRITE and REKEYING while READDIR is sent makes it go out in place of CLOSE
  (`C118_cut`). The request id does not move on with a status, so CLOSE has the id of the READDIR before it. The entries of each
  packet come in the opposite order, which undoes that of the wolfSSH server (C119).
* C120: `wolfSSH_SetChannelType` given a command or subsystem that is empty or has 4096 bytes or more reports success and keeps the name
  chosen before, so `wolfSSH_connect` asks for another command than the application's last one (`C120_ignored`), or for none at all,
  in a malformed request (`C120_no_command`). A terminal once chosen is asked for whatever is chosen later (`C120_terminal_stays`).
* C123: `wolfSSH_worker` between two calls of `wolfSSH_connect` that reported WANT_WRITE writes the buffer but leaves `connectState`, so
  that the next call sends the same message again (`C123_worker`).
* C124: the first CHANNEL_SUCCESS ends `wolfSSH_connect`. With a terminal that is the answer to the terminal request: the call succeeds
  although the server may yet refuse the shell (`C124_terminal`).
* C125: `wolfSSH_DoModes` leaves OCRNL alone (`C125_ocrnl`; the code says so in a comment). It does not look at whether `tcgetattr`
  worked.
* C126: CS7 and CS8 are tested and sent like flags, but are values of one field: on Linux a terminal of six or seven bits arrives as
  one of eight (`C126_bits`). RFC 4254 wants the speeds in bits per second; the platform's own number of the output speed is sent
  for both, and the default of 38400 is not a speed of a Linux server (`C126_speed`).
* C127: `wolfSSH_AGENT_SignRequest` calls the I/O callback without looking whether it is set (`C127_unset`), reads the answer with
  one call (an answer that comes in two pieces, or has more than 2048 bytes, is refused), and calls the cleanup callback even if
  there is no agent context and nothing was set up.
* C128: the answer is handed to the reader of *all* agent messages, so an agent can answer a request for a signature with "add
  this key" or "remove all keys" and have it carried out on the context of the process (`C128_planted`); for a type the code does
  not know, the failure message it builds is never freed (`C128_lost`). The identity list this fills is keyed by the modulus and
  exponent (or curve and point) and not by the public key blob of the protocol, so a request with the protocol's blob would not find it.
* C129: `wolfSSH_AGENT_Relay` passes over a first write that fails with anything but the general code: it reads an answer and
  reports the whole message as written (`C129_unwritten`).
* C130: `wolfSSH_accept` asks for the agent's channel again when the transport took only part of the first request: the client is
  asked for two channels and the agent context of the first is never freed (`C130_agent_twice`).
* C131: when the copy of a private key for its certificate cannot be allocated, `wolfSSH_CTX_UsePrivateKey_buffer` fails but has already
  replaced the key; the certificate keeps the old one (`C131_memory`).
* C132: a certificate loaded without its private key is offered as a host key algorithm although the server cannot sign with it
  (`C132_cert_alone`).
* C133: `wolfsshd` judges a read of stderr that gives no bytes by `errno`, which a read at the end of a pipe does not set; a value left over
  from an earlier call ends the relay and loses output (`C133_errno`). After the relay only 32768 bytes of each pipe are read
  (`C133_stderr_lost`), and what was held back for the client's window is overwritten (`C133_gap`).
* C134: `write` to the child's stdin is taken to have written all (`C134_short`). Data that arrives while output is held back, or together
  with a stalled write or during a key exchange, is not read until more arrives; until then no pipe is read either (`C134_stuck`), and the
  end of the client's data closes the child's stdin before it (`C134_eof`). A data message with no bytes breaks the relay off.
- C136: in a private key file of OpenSSH the name of the cipher is skipped, so an encrypted file is not told from a plain one but by its
  check numbers; the public key in clear is skipped, too, and not compared (`C136_clear`). The name of the curve of an ECDSA key is
  read and not used: wolfCrypt takes the curve from the size of the key, so that a key called nistp256 can be one of another curve
  (`C136_curve`). The padding is looked at only if the private part fills its last block.
- C138: `wolfSSH_ReadPublicKey_buffer` with DER writes the exponent of an RSA key without the zero that its high bit would need, so such a
  key gets a negative exponent (`C138_negative`; the modulus is treated rightly). For a line of text the type is that of its first
  word, whatever the key is (`C138_mismatch`), and a name that is not known makes no error (`C138_unknown`).
- C139: `wolfSSH_ReadPublicKey_buffer` with DER never uses the buffer of the caller: it allocates one and overwrites the pointer
  (`C139_ignored`). If that allocation fails, `*outSz` is already the size of the key, while `*out` still points to the buffer of the
  caller (`C139_size`), so a second call with the same variables may write beyond its end. A line of 2^32 - 1 bytes is copied
  into an allocation of `inSz + 1`, which is zero (`C139_overflow`).
- C140: an intermediate certificate that a peer sends is loaded into the manager of the context with the roots, and is never removed. It is then trusted for all later connections without being looked at again: after it has expired or was revoked, chains that end at it are still accepted (`C140_stale`). This is so also if the chain it came with is refused, e.g. for its leaf (`C140_failed`), and the manager grows with what peers send (`C140_grows`).
- C141: `CheckProfile` follows `cert->ca` without a test. If wolfSSL does not find the signer when it decodes the leaf with `NO_VERIFY`, this is a NULL pointer (`C141_null`, `C141_null_occurs`). Whether that can happen after the chain was verified depends on wolfSSL, which is not modelled.
- C142: `CompositeEccVerify` takes the numbers of an ECDSA signature with leading zeros, as long as the whole fits; anybody can change one accepted signature into another (`C142_padded`). Bytes after the fields of a key or a signature in a request are ignored (`KeyBlob`, `SigBlob`).
- C145: `wolfSSH_SendIgnore` does not use the bytes it is given: it sends 128 zeros (`C145_ignore_data`).
- C147: `ParseECCPubKeyCert` does not compare the curve of the key with that of the negotiated algorithm, as `ParseECCPubKey` does for plain keys: under `x509v3-ecdsa-sha2-nistp256` a key on P-384 is taken (`C147_curve`).
- C149: `getBufferFromFile` frees what it has read without zeroing it if the read is short, also for the host key (`C149_short`).
- C150: `wolfSSHD_ConfigSavePID` does not remove a file it has just created if `fstat` fails or the file belongs to another user (as on a network filesystem): an empty PID file is left (`C150_empty`).
- C152: `SniffCertForm` ends the first word of a line at a blank, a tab, a carriage return or a line feed, `DoSshPubKey` only at a blank or a line feed. For `ssh-ed25519-cert-v01@openssh.com<TAB>x <base64>`, `wolfSSH_ReadCert_buffer` succeeds and reports the type "unknown" (`C152_tab`).
- C155: `ReadFileIntoBuffer` casts the result of `ftell` to 32 bits before it compares it with the largest size allowed. Of a file that is `n` bytes longer than 4 GB (`n` up to 4 MB), the first `n` bytes are read and taken for the whole file (`C155_large`).
* SFTP client, calls that change files, noticed on the way: `wolfSSH_SFTP_MKDIR` ignores the attributes it is given and always asks for
  mode 0777; `wolfSSH_SFTP_Rename` first asks about the old name with STAT, so a dangling link cannot be renamed; Remove, RMDIR and SetSTAT do
  not look at the id of a reply and do not count their own request; attributes with the extension flag are sent with a count and no
  extensions.
* SFTP client, noticed on the way: status OK as the reply to an open request is a success with a handle of 256 zero bytes; attributes that
  do not parse are a success of `wolfSSH_SFTP_STAT`; a reply to it with another id keeps the state for good; `wolfSSH_SFTP_Close`
  does not compare ids and does not count its own; failed fetches leave the remote handle open.
* Noticed on the way: `ReceiveScpMessage` reads from whatever channel last got data (`lastChannel`), not from the channel of the
  transfer; an SCP name that does not fit is sent without its newline (`C71_long`).
