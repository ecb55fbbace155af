#!/usr/bin/env python3
"""collect harness outputs into seeded/LOG.jsonl. usage: mklog.py OUT.jsonl..."""
import json, sys
TIGHT = [
 ('FourAttr', 'PyObj.getattr', ['C81_q_raises']),
 ('OpFrom', 'partField', ['C79_parts']),
 ('Attribute', 'VClass.fieldValuesF', ['C77_items']),
 ('Dispatch', 'regsXV', ['C74_other_classes']),
 ('BatchSpace', 'SVecB.asPos', ['C71_wrong_class']),
 ('UnitVel', 'mkVelU', ['C61_result_typed']),
 ('Represent', '', ['C48_keywords_used', 'C48_keywords_returns']),
 ('Frame', 'finverseAll', ['C36_inverse_undoes', 'C36_inverse_is_reverse']),
 ('Units', 'Role.convert', ['C50_constructor']),
 ('Units', 'schema', ['C50_constructor', 'C50_derivatives']),
 ('Batch', 'el2', ['C49_origin_nan']),
 ('Arith', 'mulRank1', ['C58_product_dimensions']),
 ('Construct', 'sort3', ['C51_from_vector']),
 ('Frame', 'roll0', ['C34_roll']),
 ('Space', 'SVec.neg', ['C47_rates']),
 ('BatchOp', 'FourB.neg', ['C63_arithmetic_elementwise']),
 ('Batch', 'elCmp', ['C06_batches']),
 ('QBridge', 'atleast1d', ['C39_scalar']),
 ('Op', 'velToQuantity', ['C29_boost_simplify']),
]
def tightened(j):
    if not j['build_ok']: return []
    for f, d, t in TIGHT:
        if f in j['file'] and d in j['definition']: return t
    return []
n=0
with open('/verif/seeded/LOG.jsonl','w') as o:
    for f in sys.argv[1:]:
        try: ls=open(f).read().splitlines()
        except FileNotFoundError: continue
        for l in ls:
            j=json.loads(l)
            surv=j['build_ok']
            tight=j.get('theorems_tightened') or tightened(j)
            o.write(json.dumps(dict(definition=j['definition'], file=j['file'], edit=j['edit'], claim_broken=j['claim_broken'],
              outcome='survived' if surv else 'caught', theorems_failed=j['theorems_failed'], failed_in=j['failed_in'], theorems_tightened=tight))+'\n'); n+=1
print(n)
