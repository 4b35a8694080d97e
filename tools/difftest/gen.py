import random,shlex,json,base64,argparse,os,sys,urllib.parse as U
random.seed(int(sys.argv[1]))
def enc(s): return ','.join(str(ord(c)) for c in s)
def encb(b): return ','.join(str(x) for x in b)
def encL(l): return ';'.join('='+enc(x) for x in l)
def rs(al,n): return ''.join(random.choice(al) for _ in range(random.randrange(n)))
cases=[]
def add(f,a,r): cases.append((f,a,r))
def tr(f,g):
    try: return 'some '+g(f())
    except (ValueError,KeyError,RecursionError): return 'none'
N=4000
for _ in range(N):
    s=rs(' \t\n\'"\\ab=-xé',14); add('shlex',enc(s),tr(lambda:shlex.split(s),encL))
class RE(Exception): pass
class P(argparse.ArgumentParser):
    def error(self,m): raise RE(m)
    def print_help(self,file=None): raise RE(self.format_help())
def mk():
    p=P(prog='!'); c=p.add_subparsers(dest='command',required=True)
    for n,a,nm in (('remove_option','ro',1),('set_option','so',1),('set_hostvar','sh',1),('template','t',0)):
        q=c.add_parser(n,aliases=[a])
        if nm: q.add_argument('name')
    return p
AL={'ro':'remove_option','so':'set_option','sh':'set_hostvar','t':'template'}
def repl(args):
    try: sp=shlex.split(args)
    except ValueError: return 'none'
    try: ns=mk().parse_known_args(sp)[0]
    except RE: return 'some X'
    cm=ns.command; fin=AL.get(cm,cm)
    try:
        if fin=='template': return 'some T'+enc(args[args.index(cm)+len(cm):].lstrip())
        if fin=='remove_option': return 'some R'+enc(ns.name)
        rem=args[args.index(cm)+len(cm):].lstrip(); rem=rem[rem.index(ns.name)+len(ns.name):]
        if rem[:1] in ('"',"'"): rem=rem[1:]
        return 'some '+('O' if fin=='set_option' else 'H')+enc(ns.name)+'/'+enc(rem.lstrip())
    except ValueError: return 'none'
W=['ro','so','sh','t','template','set_option','remove_option','set_hostvar','-h','--help','--','-','--he','-x','-1','-1.5','-.5','--foo','--foo=1','-h=1','--help=1','name','"a b"',"'n'",'x=1','=','-hx','-xh','"- a"','--h','s','\\','"','a"b"','{{','|','--name','"-1 2"','\u00a0','-٣']
for _ in range(N*2):
    s=random.choice(['',' ','\u00a0','\t']) if random.random()<.2 else ''
    ws=[random.choice(W[:8] if i==0 and random.random()<.6 else W) for i in range(random.randrange(5))]
    s+=random.choice([' ','  ','\t']).join(ws)
    add('repl',enc(s),repl(s))
class F(str): pass
def js(j):
    if j is None: return 'n'
    if j is True: return 't'
    if j is False: return 'f'
    if isinstance(j,F): return 'F'+enc(j)
    if isinstance(j,int): return 'i%d'%j
    if isinstance(j,str): return 's'+enc(j)
    if isinstance(j,list): return '['+'|'.join(map(js,j))+']'
    return '{'+'|'.join(enc(k)+':'+js(v) for k,v in j.items())+'}'
JT=['{','}','[',']',',',':','"a"','"b"','"','\\','u','0','1','12','-','.','5','e','E','+','null','true','false','NaN','Infinity','-Infinity',' ','\n','\ufeff','\\u00e9','\\ud83d\\ude00','\\ud83d','"\\n"','"\\x"','é','\u2028','\x01','-0','1.5','1e5','{"a":1','"k": ',', ']
def rj(d):
    k=random.randrange(9 if d>0 else 6)
    if k==0: return None
    if k==1: return random.choice([True,False])
    if k==2: return random.randrange(-1000,1000)
    if k in(3,4,5): return rs('ab"\\\n\t\x00\x7f\u00e9\ud800\udc00\U0001F600\u2028/',6)
    if k in (6,7): return [rj(d-1) for _ in range(random.randrange(4))]
    return {rs('abc"é',3):rj(d-1) for _ in range(random.randrange(4))}
def mut(s):
    if s and random.random()<.5:
        i=random.randrange(len(s)); return s[:i]+random.choice(JT)+s[i+random.randrange(2):]
    return s
for _ in range(N*2):
    if random.random()<.4: s=''.join(random.choice(JT) for _ in range(random.randrange(7)))
    else: s=mut(json.dumps(rj(3),ensure_ascii=random.random()<.5,separators=random.choice([(',',':'),(', ',': '),(' ,\n',' :\t')])))
    try:
        s.encode('utf-16','surrogatepass')
    except Exception: continue
    v=None
    try: r='some '+js(json.loads(s,parse_float=F,parse_constant=F)); ok=True
    except ValueError: r='none'; ok=False
    add('json',enc(s),r)
    if ok and 'F' not in r.replace('False',''):
        add('jsond',enc(s),'some '+enc(json.dumps(json.loads(s))))
for _ in range(N):
    b=bytes(random.choice(b' \t\n\x0b\x0c\r\x1c\x85\xa0+-__0123459ax') for _ in range(random.randrange(6)))
    add('int',encb(b),tr(lambda:int(b),str))
for _ in range(N):
    b=bytes(random.choice([0x41,0x7f,0x80,0xbf,0xc0,0xc1,0xc2,0xdf,0xe0,0xa0,0x9f,0xed,0xef,0xf0,0x90,0x8f,0xf4,0xf5,0xff]) for _ in range(random.randrange(6)))
    add('u8d',encb(b),tr(lambda:b.decode(),enc))
    s=rs('a\x7f\x80\u07ff\u0800\ud7ff\ud800\udfff\ue000\uffff\U00010000\U0010ffff',5)
    add('u8e',enc(s),tr(lambda:s.encode(),encb))
    b=bytes(random.randrange(256) for _ in range(random.randrange(9)))
    add('b64e',encb(b),'some '+enc(base64.b64encode(b).decode()))
    add('b64d',enc(base64.b64encode(b).decode()),'some '+encb(b))
    s=rs("ab'\"$ @%+=:,./-_é\\\n!~٣",6); add('quote',enc(s),'some '+enc(shlex.quote(s)))
def url(s):
    try: u=U.urlsplit(s)
    except ValueError: return 'none'
    try: p=u.port; p='some '+('none' if p is None else 'some %d'%p)
    except ValueError: p='none'
    return 'some '+'/'.join([enc(u.scheme),enc(u.netloc),enc(u.path),enc(u.hostname or ''),p])
UT=['tcp','uds','TCP','://',':','/','//','?','#','@','[::1]','[fe80::1%eth0]','localhost','127.0.0.1','8080','0','65535','65536','a','B','.','+','-','%','\t','\n',' ','x y','é','1','Host','08','+5']
for _ in range(N*2):
    s=''.join(random.choice(UT) for _ in range(random.randrange(9)))
    if random.random()<.6: s=random.choice(['tcp://','uds://'])+s
    add('url',enc(s),url(s))
class Q(argparse.ArgumentParser):
    def error(self,m): raise RE(m)
    def print_help(self,file=None): raise RE('h')
def mkm():
    p=Q(prog='x'); a=p.add_subparsers(dest='action',required=True)
    def log(q): q.add_argument('--log-file',action='store'); q.add_argument('--log-level',action='store',choices=['info','debug','warning','error'],default=None,type=str)
    def com(q): q.add_argument('--no-wait',action='store_true'); q.add_argument('playbook_args',nargs=argparse.REMAINDER)
    c=a.add_parser('connect'); c.add_argument('--addr',action='store',required=True); log(c); com(c)
    d=a.add_parser('dap'); log(d); d.add_argument('--temp-dir',action='store',default=None)
    l=a.add_parser('listen'); l.add_argument('--addr',action='store',default=None); log(l); com(l)
    l.add_argument('--wrap-tls',action='store_true')
    for o in ('--tls-cert','--tls-key','--tls-key-pass','--tls-client-ca'): l.add_argument(o,action='store')
    return p
PM=mkm()
def args(av):
    try: ns=PM.parse_args(av)
    except RE: return 'none'
    d=[]
    for k,v in vars(ns).items():
        if k in('action','playbook_args') or v is None or v is False: continue
        o='--'+k.replace('_','-'); d.append(enc(o)+'='+('' if v is True else enc(v)))
    r={'connect':'C','dap':'D','listen':'L'}[ns.action]+'|'.join(sorted(d))
    if ns.action!='dap': r+='/'+encL(ns.playbook_args)
    return 'some '+r
AT=['--addr','--addr=x','--log-file','--log-level','--log-level=debug','info','debug','bad','--no-wait','--no','--no-wait=1','--wrap-tls','--tls-cert','--tls-key','--tls-key-pass','--tls-client-ca','--tls','--tls-k','--temp-dir','--temp','-h','--help','--he','--','-','-v','-vvv','-e','a=b','a b','- b','-1','-.5','main.yml','-i','--inventory','--log','--a','--addr=','','x','-hx','--ad=1 2','--zz y']
for _ in range(N*3):
    av=[random.choice(['connect','dap','listen'])] if random.random()<.93 else []
    if av and av[0]=='connect' and random.random()<.7: av+=['--addr','u']
    av+=[random.choice(AT) for _ in range(random.randrange(6))]
    add('args',encL(av),args(av))
random.shuffle(cases)
open('in.txt','w').write(''.join(f'{f}\t{a}\n' for f,a,r in cases))
json.dump([r for f,a,r in cases],open('exp.json','w'))
