import Verif.Errnos

/-!
# C73: the number of an error tells which error it is
-/

namespace Verif.Errnos

/-! ## Specification -/

/-- The error numbers of Linux, `asm-generic/errno-base.h` and `asm-generic/errno.h`, without aliases. -/
def linux : List (String × Nat) :=
  [("EPERM", 1), ("ENOENT", 2), ("ESRCH", 3), ("EINTR", 4), ("EIO", 5), ("ENXIO", 6),
   ("E2BIG", 7), ("ENOEXEC", 8), ("EBADF", 9), ("ECHILD", 10), ("EAGAIN", 11), ("ENOMEM", 12),
   ("EACCES", 13), ("EFAULT", 14), ("ENOTBLK", 15), ("EBUSY", 16), ("EEXIST", 17), ("EXDEV", 18),
   ("ENODEV", 19), ("ENOTDIR", 20), ("EISDIR", 21), ("EINVAL", 22), ("ENFILE", 23), ("EMFILE", 24),
   ("ENOTTY", 25), ("ETXTBSY", 26), ("EFBIG", 27), ("ENOSPC", 28), ("ESPIPE", 29), ("EROFS", 30),
   ("EMLINK", 31), ("EPIPE", 32), ("EDOM", 33), ("ERANGE", 34), ("EDEADLK", 35), ("ENAMETOOLONG", 36),
   ("ENOLCK", 37), ("ENOSYS", 38), ("ENOTEMPTY", 39), ("ELOOP", 40), ("ENOMSG", 42), ("EIDRM", 43),
   ("ECHRNG", 44), ("EL2NSYNC", 45), ("EL3HLT", 46), ("EL3RST", 47), ("ELNRNG", 48), ("EUNATCH", 49),
   ("ENOCSI", 50), ("EL2HLT", 51), ("EBADE", 52), ("EBADR", 53), ("EXFULL", 54), ("ENOANO", 55),
   ("EBADRQC", 56), ("EBADSLT", 57), ("EBFONT", 59), ("ENOSTR", 60), ("ENODATA", 61), ("ETIME", 62),
   ("ENOSR", 63), ("ENONET", 64), ("ENOPKG", 65), ("EREMOTE", 66), ("ENOLINK", 67), ("EADV", 68),
   ("ESRMNT", 69), ("ECOMM", 70), ("EPROTO", 71), ("EMULTIHOP", 72), ("EDOTDOT", 73), ("EBADMSG", 74),
   ("EOVERFLOW", 75), ("ENOTUNIQ", 76), ("EBADFD", 77), ("EREMCHG", 78), ("ELIBACC", 79), ("ELIBBAD", 80),
   ("ELIBSCN", 81), ("ELIBMAX", 82), ("ELIBEXEC", 83), ("EILSEQ", 84), ("ERESTART", 85), ("ESTRPIPE", 86),
   ("EUSERS", 87), ("ENOTSOCK", 88), ("EDESTADDRREQ", 89), ("EMSGSIZE", 90), ("EPROTOTYPE", 91), ("ENOPROTOOPT", 92),
   ("EPROTONOSUPPORT", 93), ("ESOCKTNOSUPPORT", 94), ("EOPNOTSUPP", 95), ("EPFNOSUPPORT", 96), ("EAFNOSUPPORT", 97), ("EADDRINUSE", 98),
   ("EADDRNOTAVAIL", 99), ("ENETDOWN", 100), ("ENETUNREACH", 101), ("ENETRESET", 102), ("ECONNABORTED", 103), ("ECONNRESET", 104),
   ("ENOBUFS", 105), ("EISCONN", 106), ("ENOTCONN", 107), ("ESHUTDOWN", 108), ("ETOOMANYREFS", 109), ("ETIMEDOUT", 110),
   ("ECONNREFUSED", 111), ("EHOSTDOWN", 112), ("EHOSTUNREACH", 113), ("EALREADY", 114), ("EINPROGRESS", 115), ("ESTALE", 116),
   ("EUCLEAN", 117), ("ENOTNAM", 118), ("ENAVAIL", 119), ("EISNAM", 120), ("EREMOTEIO", 121), ("EDQUOT", 122),
   ("ENOMEDIUM", 123), ("EMEDIUMTYPE", 124), ("ECANCELED", 125), ("ENOKEY", 126), ("EKEYEXPIRED", 127), ("EKEYREVOKED", 128),
   ("EKEYREJECTED", 129), ("EOWNERDEAD", 130), ("ENOTRECOVERABLE", 131), ("ERFKILL", 132), ("EHWPOISON", 133)]

/-- The name of an error of the models. -/
def nameOf : Errno → String
  | .EPERM => "EPERM" | .ENOENT => "ENOENT" | .EINTR => "EINTR" | .ENXIO => "ENXIO" | .ENOEXEC => "ENOEXEC"
  | .EBADF => "EBADF" | .EAGAIN => "EAGAIN" | .EACCES => "EACCES" | .EFAULT => "EFAULT" | .EBUSY => "EBUSY"
  | .EEXIST => "EEXIST" | .ENOTDIR => "ENOTDIR" | .EISDIR => "EISDIR" | .EINVAL => "EINVAL" | .ENFILE => "ENFILE"
  | .EFBIG => "EFBIG" | .ESPIPE => "ESPIPE" | .EPIPE => "EPIPE" | .ERANGE => "ERANGE" | .ENOTEMPTY => "ENOTEMPTY"
  | .EILSEQ => "EILSEQ" | .ENOTSOCK => "ENOTSOCK" | .ENOPROTOOPT => "ENOPROTOOPT" | .EOPNOTSUPP => "EOPNOTSUPP" | .EADDRINUSE => "EADDRINUSE"
  | .EISCONN => "EISCONN" | .ENOTCONN => "ENOTCONN" | .ETIMEDOUT => "ETIMEDOUT" | .EINPROGRESS => "EINPROGRESS" | .EPROTOTYPE => "EPROTOTYPE"
  | .EPROTONOSUPPORT => "EPROTONOSUPPORT" | .EAFNOSUPPORT => "EAFNOSUPPORT" | .EADDRNOTAVAIL => "EADDRNOTAVAIL" | .ECONNREFUSED => "ECONNREFUSED" | .EDESTADDRREQ => "EDESTADDRREQ"
  | .ENOSYS => "ENOSYS" | .EOVERFLOW => "EOVERFLOW" | .ENOMEM => "ENOMEM" | .EDEADLK => "EDEADLK" | .ESRCH => "ESRCH"
  | .EIO => "EIO" | .ENOTTY => "ENOTTY" | .EROFS => "EROFS"

/-! ## C73 -/

/-- C73.  Two errors with the same number are the same, and there is one number for each name. -/
theorem numbers_distinct {a b : String × Nat} (ha : a ∈ table) (hb : b ∈ table) : (a.2 = b.2 ↔ a = b) ∧ (a.1 = b.1 ↔ a = b) := by
  have h1 : ∀ a ∈ table, ∀ b ∈ table, a.2 = b.2 → a = b := by decide +kernel
  have h2 : ∀ a ∈ table, ∀ b ∈ table, a.1 = b.1 → a = b := by decide +kernel
  exact ⟨⟨h1 a ha b hb, fun e => e ▸ rfl⟩, ⟨h2 a ha b hb, fun e => e ▸ rfl⟩⟩

/-- C73.  Every error of the table, save one that is called `EBIG` for `E2BIG`, is the one Linux calls so, with its number. -/
theorem numbers_linux {a : String × Nat} (ha : a ∈ table) (hn : a ≠ ("EBIG", 7)) : a ∈ linux := by
  have h : ∀ a ∈ table, a ≠ ("EBIG", 7) → a ∈ linux := by decide +kernel
  exact h a ha hn

/-- C73.  The answer of each error in all other theorems is the negative of Linux's number of that name: different errors give
different numbers, none is mistaken for success, and none for another error. -/
theorem answers_linux (e : Errno) : ∃ n, (nameOf e, n) ∈ linux ∧ (Ret.err e).toInt? = some (-(n : Int)) ∧ syscallError (nameOf e) = some (-(n : Int)) ∧ 0 < n := by
  refine ⟨e.code, ?_, rfl, ?_, ?_⟩ <;> cases e <;> decide +kernel

/-- C73.  As a statement about what the program sees. -/
theorem answers_distinct (e e' : Errno) : (Ret.err e).toInt? = (Ret.err e').toInt? ↔ e = e' := by
  refine ⟨fun h => ?_, fun h => h ▸ rfl⟩
  have : e.code = e'.code := by
    simp only [Ret.toInt?, Option.some.injEq] at h; omega
  cases e <;> cases e' <;> first | rfl | (simp [Errno.code] at this)

/-- C73.  An error of the host reaches the program as it is.  Partial: two of Linux's errors end the whole process
(`unknown_host_error_violated`). -/
theorem host_error_passes_partial {a : String × Nat} (ha : a ∈ linux) (hn : a.2 ≠ 132 ∧ a.2 ≠ 133) : hostError a.2 = some (-(a.2 : Int)) := by
  have h : ∀ a ∈ linux, a.2 ≠ 132 → a.2 ≠ 133 → hostError a.2 = some (-(a.2 : Int)) := by decide +kernel
  exact h a ha hn.1 hn.2

/-- C73.  Whatever number the host gives, the program is told that number or the process ends. -/
theorem host_error_never_changed (v : Int) : hostError v = some (-v) ∨ hostError v = none := by
  unfold hostError fromDiscriminant
  cases h : table.find? (fun e => (e.2 : Int) = v) with
  | none => exact .inr rfl
  | some e =>
    have hm := List.mem_of_find?_eq_some h
    have hv : (e.2 : Int) = v := by simpa using List.find?_some h
    have key : ∀ e ∈ table, syscallError e.1 = some (-(e.2 : Int)) := by decide +kernel
    refine .inl ?_
    simp only [Option.map_some, key e hm, hv]

example : hostError 98 = some (-98) ∧ hostError 11 = some (-11) ∧ hostError 41 = none ∧ ("EADDRINUSE", 98) ∈ linux ∧ nameOf .EADDRINUSE = "EADDRINUSE" := by
  decide +kernel

/-- C73 violated: the host answers `ERFKILL` or `EHWPOISON`, which Linux documents, and the process ends. -/
theorem unknown_host_error_violated : ("ERFKILL", 132) ∈ linux ∧ hostError 132 = none ∧ ("EHWPOISON", 133) ∈ linux ∧ hostError 133 = none := by
  decide +kernel

end Verif.Errnos
