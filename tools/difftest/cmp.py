import json,collections
ins=[l.rstrip('\n').split('\t') for l in open('in.txt')]; exp=json.load(open('exp.json')); out=open('out.txt').read().split('\n')
bad=collections.Counter(); tot=collections.Counter(); shown=collections.Counter()
def d(a): 
    try: return ''.join(chr(int(x)) for x in a.split(',')) if a else ''
    except Exception: return [ ''.join(chr(int(x)) for x in p[1:].split(',')) if p[1:] else '' for p in a.split(';')]
for (f,a),e,o in zip(ins,exp,out):
    tot[f]+=1
    if e!=o:
        bad[f]+=1
        if shown[f]<6: shown[f]+=1; print(f,repr(d(a)),'py:',e,'lean:',o)
print(dict(tot)); print('BAD',dict(bad))
