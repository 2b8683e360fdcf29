import Verif.Model.Basic
/-!
# The file system calls of the SFTP server

Not code of /repo: the interface of the operating system it uses. `wolfssh/port.h` (POSIX branch: 452-524, 564, 1555-1604)
maps `WRMDIR`, `WMKDIR`, `WREMOVE`, `WRENAME`, `WSTAT`, `WLSTAT`, `WFSTAT`, `WCHMOD`, `WFCHMOD`, `WOPEN`, `WCLOSE`,
`WOPENDIR`, `WREADDIR`, `WCLOSEDIR` and `WGETCWD` to these; `WPWRITE` and `WPREAD` go through src/port.c:197-220, see
Model/Sftp.lean. `WSETTIME` and `WFSETTIME` are the constant 0 (port.h:467-468): no call. A call is recorded with its result.
-/

namespace Posix
open Wolf

/-- What `stat`, `lstat` and `fstat` report. -/
structure Stat where
  size : Nat
  uid : Nat
  gid : Nat
  mode : Nat
  atime : Nat
  mtime : Nat
  deriving DecidableEq, Repr

/-- The access mode of `open` (`O_RDONLY`, `O_WRONLY`, `O_RDWR`) with the flags of src/wolfsftp.c:2419-2449. -/
inductive Access where
  | rdonly | wronly | rdwr
  deriving DecidableEq, Repr

structure Flags where
  access : Access
  append : Bool
  creat : Bool
  trunc : Bool
  excl : Bool
  deriving DecidableEq, Repr

/-- Calls into the file system, with their results. -/
inductive Call where
  | getcwd (res : Option Bytes)
  | rmdir (path : Bytes) (ok : Bool)
  | mkdir (path : Bytes) (mode : Nat) (ok : Bool)
  | remove (path : Bytes) (ok : Bool)
  | rename (old new : Bytes) (ok : Bool)
  | stat (path : Bytes) (res : Option Stat)
  | lstat (path : Bytes) (res : Option Stat)
  | fstat (fd : Nat) (res : Option Stat)
  | chmod (path : Bytes) (mode : Nat) (ok : Bool)
  | fchmod (fd : Nat) (mode : Nat) (ok : Bool)
  | open (path : Bytes) (flags : Flags) (mode : Nat) (res : Option Nat)
  | close (fd : Nat) (ok : Bool)
  | pwrite (fd : Nat) (data : Bytes) (offset : Nat) (res : Int)
  | pread (fd : Nat) (n : Nat) (offset : Nat) (res : Option Bytes)
  | opendir (path : Bytes) (res : Option Nat)
  | readdir (dir : Nat) (res : Option Bytes)
  | closedir (dir : Nat)
  deriving DecidableEq, Repr

end Posix
