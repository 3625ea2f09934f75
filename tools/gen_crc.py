#!/usr/bin/env python3
"""Transcribes the tables of /repo/libmy/crc32c-slicing.c into lean/Verif/Model/CrcTables.lean."""
import re
L=open('/repo/libmy/crc32c-slicing.c').read().split('\n')
def tables(lo,hi):
    out=[];cur=[]
    for l in L[lo:hi]:
        if '}' in l:
            out.append(cur);cur=[]
        cur+= [int(x,16) for x in re.findall(r'0x[0-9a-fA-F]+',l)]
    return out
be=tables(38,559); le=tables(560,1081)
assert len(be)==8 and len(le)==8 and all(len(t)==256 for t in be+le)
def emit(name,lines,T):
    s=f"set_option maxRecDepth 20000 in\n/-- Models libmy/crc32c-slicing.c:{lines} (`g_crc_slicing`). -/\ndef {name} : List (List Nat) := [\n"
    s+=",\n".join("  ["+",\n   ".join(", ".join("0x%08x"%x for x in t[i:i+8]) for i in range(0,256,8))+"]" for t in T)
    return s+"]\n\n"
o="""/-!
# The tables of the slicing CRC (generated by tools/gen_crc.py from the C text)
-/

namespace Wdns

"""
o+=emit("crcTablesBe","34-559, `WORDS_BIGENDIAN`",be)+emit("crcTablesLe","560-1082, little endian",le)+"end Wdns\n"
open('/verif/lean/Verif/Model/CrcTables.lean','w').write(o)
