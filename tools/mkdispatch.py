#!/usr/bin/env python3
# Writes lean/Verif/X86/Rows.lean from the dispatch switch of /repo/src/x86-64/lifter.cc.
import re
SRC="/repo/src/x86-64/lifter.cc"
lines=open(SRC).read().splitlines()
rows=[];skip=False
for no,l in enumerate(lines,1):
    if l.startswith("#if 0"): skip=True
    if l.startswith("#endif"): skip=False
    m=re.match(r"    case FDI_(\w+): (.*?) ?break;",l)
    if m and not skip: rows.append((no,m.group(1),m.group(2)))
assert rows[0][1]=="NOP" and rows[-1][1]=="LOOPNZ"
FIX={
 "": ".nothing", "/* do nothing */": ".nothing",
 "StoreGpFacet(ArchReg::RAX, Facet::I8H, FlagAsReg(8));": ".lahf",
 "FlagFromReg(GetReg(ArchReg::RAX, Facet::I8H));": ".sahf",
 "SetReg(ArchReg::CF, irb.getFalse());": ".setFlag .cf false",
 "SetReg(ArchReg::CF, irb.getTrue());": ".setFlag .cf true",
 "SetReg(ArchReg::CF, irb.CreateNot(GetFlag(ArchReg::CF)));": ".notFlag .cf",
 "SetReg(ArchReg::DF, irb.getFalse());": ".setFlag .df false",
 "SetReg(ArchReg::DF, irb.getTrue());": ".setFlag .df true",
}
CAP={"I":"i"}
handlers={}
facets=[];lops=[];preds=[];rmws=[]
def arg(a):
    a=re.sub(r"/\*.*?\*/","",a).strip()
    if a in("true","false"): return a,"Bool"
    if re.fullmatch(r"0x[0-9a-f]+|\d+",a): return a,"Nat"
    k,v=a.rsplit("::",1) if "::" in a else ("",a)
    if k=="Facet":
        if v not in facets: facets.append(v)
        return "."+v,"Facet"
    if k=="llvm::Instruction":
        if v not in lops: lops.append(v)
        return "."+v,"LOp"
    if k=="llvm::CmpInst":
        if v not in preds: preds.append(v)
        return "."+v,"Pred"
    if k=="llvm::AtomicRMWInst":
        if v not in rmws: rmws.append(v)
        return "."+v,"Rmw"
    if k=="Condition": return "."+v.lower(),"Cond"
    if v in("ALIGN_NONE","ALIGN_MAX"): return ("true" if v=="ALIGN_MAX" else "false"),"Bool"
    raise Exception(a)
def handler(t):
    if t in FIX: return FIX[t]
    m=re.fullmatch(r"Lift(\w+)\(inst((?:, .*?)?)\);",t); assert m,t
    n=m.group(1); n=n[0].lower()+n[1:]
    args=[arg(x) for x in m.group(2).split(",")[1:]]
    if n=="andOrXor" and len(args)==2: args.append(("true","Bool"))  # default argument wb = true
    ty=[x[1] for x in args]
    assert handlers.setdefault(n,ty)==ty,(n,ty)
    return " ".join(["."+n]+[x[0] for x in args])
R=[(no,mn,handler(t)) for no,mn,t in rows]
o=["import Verif.X86.Model","","/-!",
"The dispatch switch of the x86-64 lifter, /repo/src/x86-64/lifter.cc:68-454, transcribed row by row with the",
"arguments of every call (written by tools/mkdispatch.py).","-/","","namespace Verif.X86","",
"set_option linter.constructorNameAsVariable false","",
"/-- The facets in the switch, /repo/src/facet.inc:1-48. -/","inductive Facet where"]
o.append("  | "+" | ".join(facets)); o.append("  deriving DecidableEq"); o.append("")
o+=["/-- `llvm::Instruction` opcodes in the switch. -/","inductive LOp where","  | "+" | ".join(lops),"  deriving DecidableEq",""]
o+=["/-- `llvm::CmpInst` predicates in the switch. -/","inductive Pred where","  | "+" | ".join(preds),"  deriving DecidableEq",""]
o+=["/-- `llvm::AtomicRMWInst` operations in the switch. -/","inductive Rmw where","  | "+" | ".join(rmws),"  deriving DecidableEq",""]
o+=["/-- The methods that the rows call, with their arguments; the alignment of `LiftSseMovdq` is `true` for `ALIGN_MAX`,",
"and the default argument of `LiftAndOrXor` is written out (/repo/src/x86-64/lifter-private.h:50-204). -/","inductive Handler where",
"  | nothing | lahf | sahf","  | setFlag (f : Flag) (v : Bool)","  | notFlag (f : Flag)"]
for n,ty in handlers.items():
    o.append(f"  | {n}"+("" if not ty else " "+" ".join(f"(a{i} : {t})" for i,t in enumerate(ty))))
o+=["","/-- The mnemonics of the switch; `other` stands for every mnemonic without a row. -/","inductive Mn where"]
line="  "
for _,mn,_ in R:
    p=f"| {mn} "
    if len(line)+len(p)>110: o.append(line.rstrip()); line="  "
    line+=p
o.append((line+"| other").rstrip()); o+=["  deriving DecidableEq",""]
o+=["/-- The name of the mnemonic in the manual: without the prefix of `FDI_SSE_`. -/","def Mn.name : Mn → String"]
for _,mn,_ in R: o.append(f'  | .{mn} => "{mn[4:] if mn.startswith("SSE_") else mn}"')
o.append('  | .other => ""'); o.append("")
o+=[f"/-- The switch, {SRC}:{R[0][0]}-{R[-1][0]}; `none` is the default row, 69-71. -/","def Mn.row : Mn → Option Handler"]
for no,mn,h in R: o.append(f"  | .{mn} => some ({h})" if " " in h else f"  | .{mn} => some {h}")
o.append("  | .other => none"); o+=["","end Verif.X86"]
open("/verif/lean/Verif/X86/Rows.lean","w").write("\n".join(o)+"\n")
print(len(R),"rows");print(handlers)
