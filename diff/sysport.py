"""Literal port of /repo/ts, /repo/pes and /repo/ps (Go) to Python."""
class GoErr(Exception):
    def __init__(s,k): s.k=k
class GoPanic(Exception): pass
class Hang(Exception): pass
class Skip(Exception): pass   # allocation too large to compare
M32=0xffffffff

# ---- bit reader contract (segments of bits, each ended by an error) -------
class BR:
    def __init__(s,segs): s.segs=segs; s.i=0; s.b,s.stop=segs[0]; s.o=0; s.pos=0
    def left(s): return len(s.b)-s.o
    def total(s): return s.left()+sum(len(b) for b,_ in s.segs[s.i+1:])
    def fail(s):
        k=s.stop if s.left()==0 else ('ueof' if s.stop=='eof' else s.stop)
        s.next_seg(); return k
    def next_seg(s):
        s.pos+=s.left(); s.o=len(s.b)
        if s.i+1<len(s.segs): s.i+=1; s.b,s.stop=s.segs[s.i]; s.o=0
    def need(s,k):
        if k>s.left(): raise GoErr(s.fail())
    def peek(s,k): s.need(k); return int(s.b[s.o:s.o+k] or '0',2)
    def read(s,k): v=s.peek(k); s.o+=k; s.pos+=k; return v
    def read1(s): return s.read(1)==1
    def skip(s,k): s.need(k); s.o+=k; s.pos+=k
    def skip_(s,k):
        try: s.skip(k)
        except GoErr: pass
    def aligned(s): return s.pos%8==0
    def align(s):
        k=(8-s.pos%8)%8; s.o=min(len(s.b),s.o+k); s.pos+=k
    def bytes(s,n): return [int(s.b[s.o+8*i:s.o+8*i+8],2) for i in range(n)]
    def readfull(s,n):
        """stored bytes, error"""
        if 8*n<=s.left():
            r=s.bytes(n); s.o+=8*n; s.pos+=8*n; return r,None
        r=s.bytes(s.left()//8); return r,s.fail()
    def readall(s):
        r=s.bytes(s.left()//8); e=None if s.stop=='eof' else s.stop
        s.next_seg(); return r,e

# ---- ts -------------------------------------------------------------------
class Rec:
    def show(s): return s.__class__.__name__+'('+' '.join(show(getattr(s,f)) for f in s.F)+')'
def show(v):
    if v is None: return '-'
    if v is True: return '1'
    if v is False: return '0'
    if isinstance(v,int): return str(v)
    if isinstance(v,Rec): return v.show()
    if v and isinstance(v[0],Rec): return '['+','.join(x.show() for x in v)+']'
    return 'x'+''.join('%02x'%b for b in v)

class TPD(Rec):
    F=['length','data']
    def __init__(s): s.length=0; s.data=[]
class AExt(Rec):
    F=['ltw','pwr','ss','valid','offset','rate','stype','dts','length']
    def __init__(s): s.ltw=s.pwr=s.ss=s.valid=False; s.offset=s.rate=s.stype=s.dts=s.length=0
class AF(Rec):
    F=['disc','ra','espi','pcrf','opcrf','spf','tpdf','aeff','pcr','opcr','sc','tpd','ext','length','junk']
    def __init__(s):
        s.disc=s.ra=s.espi=s.pcrf=s.opcrf=s.spf=s.tpdf=s.aeff=False
        s.pcr=s.opcr=s.sc=s.length=0; s.tpd=s.ext=None; s.junk=[]

def newTPD(br):
    t=TPD(); t.length=br.read(8)
    if t.length>0:
        t.data,e=br.readfull(t.length)
        if e=='eof': raise GoErr('ueof')
        if e: raise GoErr(e)
    return t,t.length
def newAExt(br):
    a=AExt(); a.length=br.read(8); rl=a.length
    if rl>=1:
        a.ltw=br.read1(); a.pwr=br.read1(); a.ss=br.read1(); br.skip_(5); rl-=1
    if rl>=2 and a.ltw:
        a.valid=br.read1(); a.offset=br.read(15); rl-=2
    if rl>=3 and a.pwr:
        br.skip_(2); a.rate=br.read(22); rl-=3
    if rl>=5 and a.ss:
        a.stype=br.read(4); a.dts=br.read(3)<<30; br.skip_(1)
        a.dts+=br.read(15)<<15; br.skip_(1); a.dts+=br.read(15)
    return a,a.length
def newAF(br):
    af=AF(); rl=br.read(8); af.length=rl
    if rl>=1:
        for f in AF.F[:8]: setattr(af,f,br.read1())
        rl-=1
    def pcr():
        base=br.read(33); br.read(6); ext=br.read(9); return base*300+ext
    if rl>=6 and af.pcrf: af.pcr=pcr(); rl-=6
    if rl>=6 and af.opcrf: af.opcr=pcr(); rl-=6
    if rl>=1 and af.spf: af.sc=br.read(8); rl-=1
    if rl>=1 and af.tpdf:
        af.tpd,l=newTPD(br); rl=(rl-(l+1))&M32
    if rl>=2 and af.aeff:
        af.ext,l=newAExt(br); rl=(rl-(l+1))&M32
    if rl>0:
        af.junk,e=br.readfull(rl)
        if e=='eof': raise GoErr('ueof')
        if e: raise GoErr(e)
    return af,af.length

class TSPacket(Rec):
    F=['tei','pusi','prio','pid','tsc','afc','cc','af','payload']
    def __init__(p):
        p.tei=p.pusi=p.prio=False; p.pid=p.tsc=p.afc=p.cc=0; p.af=None
        p.plen=0; p.buf=[0]*184
    @property
    def payload(p): return p.buf[:p.plen]
    def into(p,f,m,z):
        try: setattr(p,f,m())
        except GoErr: setattr(p,f,z); raise
    def next(p,br):
        al=False
        if br.aligned(): al=br.peek(8)==0x47
        if not al: realign(br)
        br.skip(8)
        p.into('tei',br.read1,False); p.into('pusi',br.read1,False); p.into('prio',br.read1,False)
        p.into('pid',lambda:br.read(13),0); p.into('tsc',lambda:br.read(2),0)
        p.afc=br.read(2)
        p.into('cc',lambda:br.read(4),0)
        size=184
        if p.afc in(2,3):
            try: p.af,l=newAF(br)
            except GoErr: p.af=None; raise
            size=(size-(l+1))&M32
        if p.afc in(1,3):
            if size>184: raise GoPanic()
            p.plen=size
            bs,e=br.readfull(size); p.buf[:len(bs)]=bs
            if e=='eof': raise GoErr('ueof')
            if e: raise GoErr(e)
def realign(br):
    if not br.aligned(): br.align()
    for i in range(188):
        if br.peek(8)==0x47: return
        br.skip(8)
    raise GoErr('nosync')

class PR:
    def __init__(r,br,where,skip,take):
        r.cur=None; r.br=br; r.where=where; r.skip=skip; r.take=take; r.rem=[]; r.closed=False; r.budget=3*br.total()//8+400
    def read(r,n):
        out=[]
        if r.closed: return out,'eof'
        if r.cur is None:
            r.cur=TSPacket()
            if r.skip is not None: r.realign()
        k=min(n,len(r.rem)); out+=r.rem[:k]; r.rem=r.rem[k:]; n-=k
        rem=[]
        while n>0:
            try: r.cur.next(r.br)
            except GoErr as e: return out,e.k
            if r.where(r.cur):
                c=min(n,len(r.cur.payload)); out+=r.cur.payload[:c]; n-=c; rem=r.cur.payload[c:]
            if not r.take(r.cur):
                r.closed=True; return out,'eof'
        r.rem+=rem
        return out,None
    def realign(r):
        while True:
            r.budget-=1
            if r.budget<0: raise Hang()
            try: r.cur.next(r.br)
            except GoErr: pass
            if r.skip(r.cur): r.rem+=r.cur.payload; return

class PU:
    def __init__(s,br,where):
        s.cur=None; s.buf=[]; s.br=br; s.where=where; s.start=lambda p: where(p) and p.pusi; s.ready=False
    def read(s,n):
        out=[]
        if not s.ready:
            try: s.fill()
            except GoErr as e: return [],e.k
            s.ready=True
        while n>0:
            if not s.buf:
                s.ready=False; return out,'eop'
            k=min(n,len(s.buf)); out+=s.buf[:k]; s.buf=s.buf[k:]; n-=k
        return out,None
    def fill(s):
        if s.cur is None:
            s.cur=TSPacket()
            while not s.start(s.cur): s.cur.next(s.br)
        while True:
            if s.where(s.cur): s.buf+=s.cur.payload
            s.cur.next(s.br)
            if s.start(s.cur): break

# ---- pes --------------------------------------------------------------------
class PStd(Rec):
    F=['scale','size']
class Ext(Rec):
    F=['pd','ph','ppsc','pstd','e2','data','buf']
    def __init__(s): s.pd=s.ph=s.ppsc=s.pstd=s.e2=False; s.data=[]; s.buf=None
class Hdr(Rec):
    F=['sc','prio','dai','copy','orig','ptsf','escr','esr','dsm','aci','crc','extf','hdl','pts','dts','ext']
    def __init__(s):
        for f in s.F: setattr(s,f,0)
        for f in ['prio','dai','copy','orig','escr','esr','dsm','aci','crc','extf']: setattr(s,f,False)
        s.ext=None
def mark(br,k,v):
    try: x=br.read(k)
    except GoErr: raise GoErr('marker')
    if x!=v: raise GoErr('marker')
def stamp(m,br):
    mark(br,4,m); t=(br.read(3)<<30)&M32
    mark(br,1,1); t|=(br.read(15)<<15)&M32
    mark(br,1,1); t|=br.read(15)
    mark(br,1,1); return t,5
def readExt(br):
    e=Ext(); n=0
    e.pd=br.read1(); e.ph=br.read1(); e.ppsc=br.read1(); e.pstd=br.read1(); br.skip(3); e.e2=br.read1()
    n+=1
    if e.pd:
        e.data,er=br.readfull(16); n+=16
        if er: raise GoErr(er)
    if e.ph or e.ppsc: raise GoPanic()
    if e.pstd:
        mark(br,2,1); b=PStd(); b.scale=br.read(1); b.size=br.read(13); e.buf=b; n+=2
    if e.e2: raise GoPanic()
    return e,n
def readHdr(br):
    mark(br,2,2)
    h=Hdr()
    h.sc=br.read(2)
    for f in ['prio','dai','copy','orig']: setattr(h,f,br.read1())
    h.ptsf=br.read(2)
    for f in ['escr','esr','dsm','aci','crc','extf']: setattr(h,f,br.read1())
    h.hdl=br.read(8)
    n=3
    if h.ptsf==2: h.pts,l=stamp(2,br); n+=l
    if h.ptsf==3:
        h.pts,l=stamp(3,br); n+=l
        h.dts,l=stamp(1,br); n+=l
    if h.escr or h.esr or h.dsm or h.aci or h.crc: raise GoPanic()
    if h.extf: h.ext,l=readExt(br); n+=l
    length=(h.hdl-(n-3))&M32
    for i in range(length):
        if br.read(8)!=255: raise GoErr('stuff')
    n=(n+length)&M32
    return h,n
NOHDR={0xbc,0xbe,0xbf,0xf0,0xf1,0xff,0xf2,0xf8}
class PESPacket(Rec):
    F=['id','len','hdr','payload']
    def __init__(p): p.id=p.len=0; p.hdr=None; p.payload=[]
    def next(p,br):
        if br.peek(24)!=1: raise GoErr('prefix')
        br.skip_(24)
        try: p.id=br.read(8)
        except GoErr: p.id=0; raise
        try: p.len=br.read(16)
        except GoErr: p.len=0; raise
        if p.id not in NOHDR:
            try: p.hdr,hl=readHdr(br)
            except GoErr: p.hdr=None; raise
            if p.len>0:
                n=(p.len-hl)&M32
                if n>1<<20: raise Skip()
                bs,e=br.readfull(n)
                p.payload=bs+[0]*(n-len(bs))
                if e: raise GoErr(e)
            else:
                p.payload,e=br.readall()
                if e and e!='eop': raise GoErr(e)
        elif p.id==0xbe:
            _,e=br.readfull(p.len)
            if e: raise GoErr(e)
class PESReader:
    def __init__(r,br): r.br=br; r.cur=PESPacket(); r.rem=[]
    def read(r,n):
        out=[]
        k=min(n,len(r.rem)); out+=r.rem[:k]; r.rem=r.rem[k:]; n-=k
        rem=[]
        while n>0:
            try: r.cur.next(r.br)
            except GoErr as e: return out,e.k
            c=min(n,len(r.cur.payload)); out+=r.cur.payload[:c]; n-=c; rem=r.cur.payload[c:]
        r.rem+=rem
        return out,None

# ---- ps ---------------------------------------------------------------------
class Strm(Rec): F=['id','scale','size']
class Sys(Rec):
    F=['hl','rb','ab','fixed','csps','al','vl','vb','prr','streams']
class Pack(Rec): F=['base','ext','rate','sys']
def pmark(br,k,v):
    if br.read(k)!=v: raise GoErr('marker')
def readSys(br):
    br.skip(32); s=Sys(); s.vb=0; s.streams=[]
    s.hl=br.read(16); pmark(br,1,1); s.rb=br.read(22); pmark(br,1,1); s.ab=br.read(6)
    s.fixed=br.read1(); s.csps=br.read1(); s.al=br.read1(); s.vl=br.read1(); pmark(br,1,1)
    s.ab=br.read(5); s.prr=br.read1(); br.skip(7)
    while br.peek(1)==1:
        t=Strm(); t.id=br.read(8); pmark(br,2,3); t.scale=br.read1(); t.size=br.read(13); s.streams.append(t)
    return s
def packHeader(br):
    if br.peek(32)!=0x1ba: raise GoErr('usc')
    br.skip(32)
    pmark(br,2,1); p=Pack(); p.sys=None
    p.base=(br.read(3)<<30)&M32; pmark(br,1,1); p.base|=br.read(15)<<15; pmark(br,1,1); p.base|=br.read(15); pmark(br,1,1)
    p.ext=br.read(9); pmark(br,1,1); p.rate=br.read(22); pmark(br,1,1); pmark(br,1,1)
    br.skip(5)
    for i in range(br.read(3)): br.skip_(8)
    if br.peek(32)==0x1bb: p.sys=readSys(br)
    return p
class PackReader:
    def __init__(r,br): r.br=br; r.rem=[]
    def read(r,n):
        """stored bytes, count, error"""
        out=[]
        if r.rem or n==0:
            k=min(n,len(r.rem)); out+=r.rem[:k]; r.rem=r.rem[k:]; n-=k
            if n==0: return out,len(out),None
        while True:
            try: v=r.br.peek(32)
            except GoErr: return out,0,None
            if v==0x1b9:
                r.br.skip_(32); return out,len(out),'eof'
            if v==0x1ba:
                try: packHeader(r.br)
                except GoErr as e: return out,0,e.k
            p=PESPacket()
            try: p.next(r.br)
            except GoErr: return out,0,None
            c=min(n,len(p.payload)); out+=p.payload[:c]; n-=c
            if n==0:
                r.rem+=p.payload[c:]; return out,len(out),None

# ---- runs ---------------------------------------------------------------------
HX=lambda b: ''.join('%02x'%x for x in b)
def tester(spec):
    a=spec.split()
    k=a[0]
    if k=='t': return lambda p: True
    if k=='p': return lambda p: p.pid==int(a[1])
    if k=='n': return lambda p: p.pid!=int(a[1])
    if k=='u': return lambda p: p.pid==int(a[1]) and p.pusi
    if k=='v': return lambda p: not(p.pid==int(a[1]) and p.pusi)
    if k=='-': return None
def run(mode,spec,sizes,segs):
    """list of lines"""
    br=BR(segs); res=[]
    try:
        if mode=='T':
            p=TSPacket()
            for _ in sizes:
                e=None
                try: p.next(br)
                except GoErr as x: e=x.k
                res.append(f'{p.show()} {show_e(e)} {br.pos}')
        elif mode=='R':
            w,s,t=spec.split(',')
            r=PR(br,tester(w),tester(s),tester(t))
            for n in sizes: o,e=r.read(n); res.append(f'{HX(o)} {show_e(e)} {br.pos} {len(r.rem)}')
        elif mode=='U':
            r=PU(br,tester(spec))
            for n in sizes: o,e=r.read(n); res.append(f'{HX(o)} {show_e(e)} {br.pos} {len(r.buf)}')
        elif mode=='E':
            p=PESPacket()
            for _ in sizes:
                e=None
                try: p.next(br)
                except GoErr as x: e=x.k
                res.append(f'{p.show()} {show_e(e)} {br.pos}')
        elif mode=='Q':
            r=PESReader(br)
            for n in sizes: o,e=r.read(n); res.append(f'{HX(o)} {show_e(e)} {br.pos} {len(r.rem)}')
        elif mode=='H':
            for _ in sizes:
                e=None; h=None
                try: h=packHeader(br)
                except GoErr as x: e=x.k
                res.append(f'{show(h)} {show_e(e)} {br.pos}')
        elif mode=='K':
            r=PackReader(br)
            for n in sizes: o,c,e=r.read(n); res.append(f'{HX(o)} {c} {show_e(e)} {br.pos} {len(r.rem)}')
    except GoPanic: res.append('P')
    except Hang: res.append('H')
    return res
def show_e(e): return '-' if e is None else e
