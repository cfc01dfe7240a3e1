#!/usr/bin/env python3
"""Set fields of a property (or add it): prop.py ID key=value ...; anchors are comma separated."""
import json,sys
path='/verif/properties.jsonl'
L=[json.loads(l) for l in open(path) if l.strip()]
pid=sys.argv[1]
d=next((x for x in L if x['id']==pid),None)
if d is None:
    d={'id':pid,'title':'','statement':'','quantifier':'','why_tests_cant':'','anchors':[]}; L.append(d)
for kv in sys.argv[2:]:
    k,v=kv.split('=',1)
    d[k]=v.split(',') if k=='anchors' else v
L.sort(key=lambda x:int(x['id'][1:]))
open(path,'w').write(''.join(json.dumps(x)+'\n' for x in L))
