#!/usr/bin/env python3
# Writes lean/Verif/CpuStruct/Tables.lean from the JSON descriptions in /repo/data/rellume.
import json,re
out=["import Verif.CpuStruct.Model","",
"/-!","The CPU struct descriptions, transcribed entry by entry from /repo/data/rellume/cpustruct-*.json","(written by tools/mkcpustruct.py).","-/","","namespace Verif.CpuStruct",""]
for arch,defn in (("x86_64","x86Desc"),("rv64","rvDesc"),("aarch64","a64Desc")):
    path=f"/repo/data/rellume/cpustruct-{arch}.json"
    lines=open(path).read().splitlines()
    d=json.load(open(path))
    idx=[i+1 for i,l in enumerate(lines) if l.strip().startswith("{")]
    assert len(idx)==len(d)
    out.append(f"/-- {path}:{idx[0]}-{idx[-1]} -/")
    out.append(f"def {defn} : List Desc := [")
    rows=[]
    for e in d:
        assert set(e)<= {"name","size","reg","export"}
        nm=f'some "{e["name"]}"' if "name" in e else "none"
        if "reg" in e:
            r,f=e["reg"]
            m=re.fullmatch(r"(GP|VEC|FLAG)\((\d+)\)",r)
            if m: rr=f'.{m.group(1).lower()} {m.group(2)}'
            else:
                assert r=="INVALID"; rr=".invalid"
            reg=f"some ({rr}, .{f})"
        else: reg="none"
        rows.append(f"  ⟨{nm}, {e['size']}, {reg}, {'true' if e.get('export') else 'false'}⟩")
    out.append(",\n".join(rows)+"]")
    out.append("")
out.append("end Verif.CpuStruct")
open("/verif/lean/Verif/CpuStruct/Tables.lean","w").write("\n".join(out)+"\n")
