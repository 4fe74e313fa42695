import json,glob,os,re
for l in open('/verif/properties.jsonl'):
    d=json.loads(l)
    for a in d['anchors']:
        f,_,s=a.partition(':')
        fs=glob.glob('/repo/'+f)
        if not fs: print(d['id'],'NOFILE',a); continue
        if s and not any(s.split('::')[-1] in open(x,errors='replace').read() for x in fs): print(d['id'],'NOSYM',a)
