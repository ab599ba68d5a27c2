import Verif.CpuStruct.Model

/-!
The CPU struct descriptions, transcribed entry by entry from /repo/data/rellume/cpustruct-*.json
(written by tools/mkcpustruct.py).
-/

namespace Verif.CpuStruct

/-- /repo/data/rellume/cpustruct-x86_64.json:2-44 -/
def x86Desc : List Desc := [
  ⟨some "rip", 8, some (.invalid, .I64), true⟩,
  ⟨some "rax", 8, some (.gp 0, .I64), true⟩,
  ⟨some "rcx", 8, some (.gp 1, .I64), true⟩,
  ⟨some "rdx", 8, some (.gp 2, .I64), true⟩,
  ⟨some "rbx", 8, some (.gp 3, .I64), true⟩,
  ⟨some "rsp", 8, some (.gp 4, .I64), true⟩,
  ⟨some "rbp", 8, some (.gp 5, .I64), true⟩,
  ⟨some "rsi", 8, some (.gp 6, .I64), true⟩,
  ⟨some "rdi", 8, some (.gp 7, .I64), true⟩,
  ⟨some "r8", 8, some (.gp 8, .I64), true⟩,
  ⟨some "r9", 8, some (.gp 9, .I64), true⟩,
  ⟨some "r10", 8, some (.gp 10, .I64), true⟩,
  ⟨some "r11", 8, some (.gp 11, .I64), true⟩,
  ⟨some "r12", 8, some (.gp 12, .I64), true⟩,
  ⟨some "r13", 8, some (.gp 13, .I64), true⟩,
  ⟨some "r14", 8, some (.gp 14, .I64), true⟩,
  ⟨some "r15", 8, some (.gp 15, .I64), true⟩,
  ⟨some "zf", 1, some (.flag 0, .I1), false⟩,
  ⟨some "sf", 1, some (.flag 1, .I1), false⟩,
  ⟨some "pf", 1, some (.flag 2, .I8), false⟩,
  ⟨some "cf", 1, some (.flag 3, .I1), false⟩,
  ⟨some "of", 1, some (.flag 4, .I1), false⟩,
  ⟨some "af", 1, some (.flag 5, .I1), false⟩,
  ⟨some "df", 1, some (.flag 6, .I1), false⟩,
  ⟨none, 1, none, false⟩,
  ⟨some "fsbase", 8, some (.invalid, .I64), true⟩,
  ⟨some "gsbase", 8, some (.invalid, .I64), true⟩,
  ⟨some "xmm0", 16, some (.vec 0, .V2I64), true⟩,
  ⟨some "xmm1", 16, some (.vec 1, .V2I64), true⟩,
  ⟨some "xmm2", 16, some (.vec 2, .V2I64), true⟩,
  ⟨some "xmm3", 16, some (.vec 3, .V2I64), true⟩,
  ⟨some "xmm4", 16, some (.vec 4, .V2I64), true⟩,
  ⟨some "xmm5", 16, some (.vec 5, .V2I64), true⟩,
  ⟨some "xmm6", 16, some (.vec 6, .V2I64), true⟩,
  ⟨some "xmm7", 16, some (.vec 7, .V2I64), true⟩,
  ⟨some "xmm8", 16, some (.vec 8, .V2I64), true⟩,
  ⟨some "xmm9", 16, some (.vec 9, .V2I64), true⟩,
  ⟨some "xmm10", 16, some (.vec 10, .V2I64), true⟩,
  ⟨some "xmm11", 16, some (.vec 11, .V2I64), true⟩,
  ⟨some "xmm12", 16, some (.vec 12, .V2I64), true⟩,
  ⟨some "xmm13", 16, some (.vec 13, .V2I64), true⟩,
  ⟨some "xmm14", 16, some (.vec 14, .V2I64), true⟩,
  ⟨some "xmm15", 16, some (.vec 15, .V2I64), true⟩]

/-- /repo/data/rellume/cpustruct-rv64.json:2-66 -/
def rvDesc : List Desc := [
  ⟨some "rip", 8, some (.invalid, .I64), true⟩,
  ⟨some "x0", 8, some (.gp 0, .I64), false⟩,
  ⟨some "x1", 8, some (.gp 1, .I64), true⟩,
  ⟨some "x2", 8, some (.gp 2, .I64), true⟩,
  ⟨some "x3", 8, some (.gp 3, .I64), true⟩,
  ⟨some "x4", 8, some (.gp 4, .I64), true⟩,
  ⟨some "x5", 8, some (.gp 5, .I64), true⟩,
  ⟨some "x6", 8, some (.gp 6, .I64), true⟩,
  ⟨some "x7", 8, some (.gp 7, .I64), true⟩,
  ⟨some "x8", 8, some (.gp 8, .I64), true⟩,
  ⟨some "x9", 8, some (.gp 9, .I64), true⟩,
  ⟨some "x10", 8, some (.gp 10, .I64), true⟩,
  ⟨some "x11", 8, some (.gp 11, .I64), true⟩,
  ⟨some "x12", 8, some (.gp 12, .I64), true⟩,
  ⟨some "x13", 8, some (.gp 13, .I64), true⟩,
  ⟨some "x14", 8, some (.gp 14, .I64), true⟩,
  ⟨some "x15", 8, some (.gp 15, .I64), true⟩,
  ⟨some "x16", 8, some (.gp 16, .I64), true⟩,
  ⟨some "x17", 8, some (.gp 17, .I64), true⟩,
  ⟨some "x18", 8, some (.gp 18, .I64), true⟩,
  ⟨some "x19", 8, some (.gp 19, .I64), true⟩,
  ⟨some "x20", 8, some (.gp 20, .I64), true⟩,
  ⟨some "x21", 8, some (.gp 21, .I64), true⟩,
  ⟨some "x22", 8, some (.gp 22, .I64), true⟩,
  ⟨some "x23", 8, some (.gp 23, .I64), true⟩,
  ⟨some "x24", 8, some (.gp 24, .I64), true⟩,
  ⟨some "x25", 8, some (.gp 25, .I64), true⟩,
  ⟨some "x26", 8, some (.gp 26, .I64), true⟩,
  ⟨some "x27", 8, some (.gp 27, .I64), true⟩,
  ⟨some "x28", 8, some (.gp 28, .I64), true⟩,
  ⟨some "x29", 8, some (.gp 29, .I64), true⟩,
  ⟨some "x30", 8, some (.gp 30, .I64), true⟩,
  ⟨some "x31", 8, some (.gp 31, .I64), true⟩,
  ⟨some "f0", 8, some (.vec 0, .I64), true⟩,
  ⟨some "f1", 8, some (.vec 1, .I64), true⟩,
  ⟨some "f2", 8, some (.vec 2, .I64), true⟩,
  ⟨some "f3", 8, some (.vec 3, .I64), true⟩,
  ⟨some "f4", 8, some (.vec 4, .I64), true⟩,
  ⟨some "f5", 8, some (.vec 5, .I64), true⟩,
  ⟨some "f6", 8, some (.vec 6, .I64), true⟩,
  ⟨some "f7", 8, some (.vec 7, .I64), true⟩,
  ⟨some "f8", 8, some (.vec 8, .I64), true⟩,
  ⟨some "f9", 8, some (.vec 9, .I64), true⟩,
  ⟨some "f10", 8, some (.vec 10, .I64), true⟩,
  ⟨some "f11", 8, some (.vec 11, .I64), true⟩,
  ⟨some "f12", 8, some (.vec 12, .I64), true⟩,
  ⟨some "f13", 8, some (.vec 13, .I64), true⟩,
  ⟨some "f14", 8, some (.vec 14, .I64), true⟩,
  ⟨some "f15", 8, some (.vec 15, .I64), true⟩,
  ⟨some "f16", 8, some (.vec 16, .I64), true⟩,
  ⟨some "f17", 8, some (.vec 17, .I64), true⟩,
  ⟨some "f18", 8, some (.vec 18, .I64), true⟩,
  ⟨some "f19", 8, some (.vec 19, .I64), true⟩,
  ⟨some "f20", 8, some (.vec 20, .I64), true⟩,
  ⟨some "f21", 8, some (.vec 21, .I64), true⟩,
  ⟨some "f22", 8, some (.vec 22, .I64), true⟩,
  ⟨some "f23", 8, some (.vec 23, .I64), true⟩,
  ⟨some "f24", 8, some (.vec 24, .I64), true⟩,
  ⟨some "f25", 8, some (.vec 25, .I64), true⟩,
  ⟨some "f26", 8, some (.vec 26, .I64), true⟩,
  ⟨some "f27", 8, some (.vec 27, .I64), true⟩,
  ⟨some "f28", 8, some (.vec 28, .I64), true⟩,
  ⟨some "f29", 8, some (.vec 29, .I64), true⟩,
  ⟨some "f30", 8, some (.vec 30, .I64), true⟩,
  ⟨some "f31", 8, some (.vec 31, .I64), true⟩]

/-- /repo/data/rellume/cpustruct-aarch64.json:2-74 -/
def a64Desc : List Desc := [
  ⟨some "pc", 8, some (.invalid, .I64), true⟩,
  ⟨some "n", 1, some (.flag 1, .I1), false⟩,
  ⟨some "z", 1, some (.flag 0, .I1), false⟩,
  ⟨some "c", 1, some (.flag 3, .I1), false⟩,
  ⟨some "v", 1, some (.flag 4, .I1), false⟩,
  ⟨none, 4, none, false⟩,
  ⟨some "x0", 8, some (.gp 0, .I64), true⟩,
  ⟨some "x1", 8, some (.gp 1, .I64), true⟩,
  ⟨some "x2", 8, some (.gp 2, .I64), true⟩,
  ⟨some "x3", 8, some (.gp 3, .I64), true⟩,
  ⟨some "x4", 8, some (.gp 4, .I64), true⟩,
  ⟨some "x5", 8, some (.gp 5, .I64), true⟩,
  ⟨some "x6", 8, some (.gp 6, .I64), true⟩,
  ⟨some "x7", 8, some (.gp 7, .I64), true⟩,
  ⟨some "x8", 8, some (.gp 8, .I64), true⟩,
  ⟨some "x9", 8, some (.gp 9, .I64), true⟩,
  ⟨some "x10", 8, some (.gp 10, .I64), true⟩,
  ⟨some "x11", 8, some (.gp 11, .I64), true⟩,
  ⟨some "x12", 8, some (.gp 12, .I64), true⟩,
  ⟨some "x13", 8, some (.gp 13, .I64), true⟩,
  ⟨some "x14", 8, some (.gp 14, .I64), true⟩,
  ⟨some "x15", 8, some (.gp 15, .I64), true⟩,
  ⟨some "x16", 8, some (.gp 16, .I64), true⟩,
  ⟨some "x17", 8, some (.gp 17, .I64), true⟩,
  ⟨some "x18", 8, some (.gp 18, .I64), true⟩,
  ⟨some "x19", 8, some (.gp 19, .I64), true⟩,
  ⟨some "x20", 8, some (.gp 20, .I64), true⟩,
  ⟨some "x21", 8, some (.gp 21, .I64), true⟩,
  ⟨some "x22", 8, some (.gp 22, .I64), true⟩,
  ⟨some "x23", 8, some (.gp 23, .I64), true⟩,
  ⟨some "x24", 8, some (.gp 24, .I64), true⟩,
  ⟨some "x25", 8, some (.gp 25, .I64), true⟩,
  ⟨some "x26", 8, some (.gp 26, .I64), true⟩,
  ⟨some "x27", 8, some (.gp 27, .I64), true⟩,
  ⟨some "x28", 8, some (.gp 28, .I64), true⟩,
  ⟨some "x29", 8, some (.gp 29, .I64), true⟩,
  ⟨some "x30", 8, some (.gp 30, .I64), true⟩,
  ⟨some "sp", 8, some (.gp 31, .I64), true⟩,
  ⟨some "tpidr_el0", 8, some (.invalid, .I64), false⟩,
  ⟨none, 8, none, false⟩,
  ⟨some "v0", 16, some (.vec 0, .V2I64), true⟩,
  ⟨some "v1", 16, some (.vec 1, .V2I64), true⟩,
  ⟨some "v2", 16, some (.vec 2, .V2I64), true⟩,
  ⟨some "v3", 16, some (.vec 3, .V2I64), true⟩,
  ⟨some "v4", 16, some (.vec 4, .V2I64), true⟩,
  ⟨some "v5", 16, some (.vec 5, .V2I64), true⟩,
  ⟨some "v6", 16, some (.vec 6, .V2I64), true⟩,
  ⟨some "v7", 16, some (.vec 7, .V2I64), true⟩,
  ⟨some "v8", 16, some (.vec 8, .V2I64), true⟩,
  ⟨some "v9", 16, some (.vec 9, .V2I64), true⟩,
  ⟨some "v10", 16, some (.vec 10, .V2I64), true⟩,
  ⟨some "v11", 16, some (.vec 11, .V2I64), true⟩,
  ⟨some "v12", 16, some (.vec 12, .V2I64), true⟩,
  ⟨some "v13", 16, some (.vec 13, .V2I64), true⟩,
  ⟨some "v14", 16, some (.vec 14, .V2I64), true⟩,
  ⟨some "v15", 16, some (.vec 15, .V2I64), true⟩,
  ⟨some "v16", 16, some (.vec 16, .V2I64), true⟩,
  ⟨some "v17", 16, some (.vec 17, .V2I64), true⟩,
  ⟨some "v18", 16, some (.vec 18, .V2I64), true⟩,
  ⟨some "v19", 16, some (.vec 19, .V2I64), true⟩,
  ⟨some "v20", 16, some (.vec 20, .V2I64), true⟩,
  ⟨some "v21", 16, some (.vec 21, .V2I64), true⟩,
  ⟨some "v22", 16, some (.vec 22, .V2I64), true⟩,
  ⟨some "v23", 16, some (.vec 23, .V2I64), true⟩,
  ⟨some "v24", 16, some (.vec 24, .V2I64), true⟩,
  ⟨some "v25", 16, some (.vec 25, .V2I64), true⟩,
  ⟨some "v26", 16, some (.vec 26, .V2I64), true⟩,
  ⟨some "v27", 16, some (.vec 27, .V2I64), true⟩,
  ⟨some "v28", 16, some (.vec 28, .V2I64), true⟩,
  ⟨some "v29", 16, some (.vec 29, .V2I64), true⟩,
  ⟨some "v30", 16, some (.vec 30, .V2I64), true⟩,
  ⟨some "v31", 16, some (.vec 31, .V2I64), true⟩]

end Verif.CpuStruct
