"""Writes lean/Verif/Config/Shipped.lean from the JSON files of the repository."""
import json
D='/repo/data/inputs/configs/schemas/'
def s(x): return json.dumps(x)
def lean(x):
    if isinstance(x,bool): return f'.leaf (.bool {str(x).lower()})'
    if x is None: return '.leaf .null'
    if isinstance(x,int): return f'.leaf (.num ({x}))' if x<0 else f'.leaf (.num {x})'
    if isinstance(x,float): return f'.leaf (.num {int(x)})' if x==int(x) else f'.leaf (.num {round(x*10**9)})'
    if isinstance(x,str): return f'.leaf (.str {s(x)})'
    if isinstance(x,list): return '.node true ['+', '.join(f'(.idx {i}, {lean(v)})' for i,v in enumerate(x))+']'
    return '.node false ['+', '.join(f'(.str {s(k)}, {lean(v)})' for k,v in x.items())+']'
P=json.load(open(D+'cfg_parameters.json')); S=json.load(open(D+'cfg_schema.json')); X=json.load(open(D+'cfg_schema_by_experiment.json'))
out=['import Verif.Config.Model','','/-!','# The shipped parameter file and schemas','',
'Generated by `tools/gen_shipped.py` from data/inputs/configs/schemas (floats that are not whole: opaque codes).','-/','','namespace GeNSIT','','namespace Shipped','']
def top(name,d,doc):
    parts=[]
    for i,(k,v) in enumerate(d.items()):
        out.append(f'/-- `{k}` of {doc}. -/'); out.append(f'def {name}{i} : Cfg := {lean(v)}'); out.append('')
        parts.append(f'(.str {s(k)}, {name}{i})')
    out.append(f'/-- data/inputs/configs/schemas/{doc}. -/'); out.append(f'def {name} : Cfg := .node false [{", ".join(parts)}]'); out.append('')
top('params',P,'cfg_parameters.json'); top('schema',S,'cfg_schema.json')
out.append('/-- data/inputs/configs/schemas/cfg_schema_by_experiment.json: per experiment type the entries, with the key path already split at `>`\nand numeric parts turned into indices (config.py:402-407). -/')
def path(q): return '['+', '.join(f'.idx {k}' if k.isnumeric() else f'.str {s(k)}' for k in q.split('>'))+']'
out.append('def experiments : List (String × List (List Key × Cfg)) := [')
out.append(',\n'.join('  ('+s(k)+', ['+',\n    '.join(f'({path(q)}, {lean(val)})' for q,val in v.items())+'])' for k,v in X.items())+']')
out+=['','end Shipped','','end GeNSIT','']
open('/verif/lean/Verif/Config/Shipped.lean','w').write('\n'.join(out))
