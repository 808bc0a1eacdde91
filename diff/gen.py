import random, port as P
def B(k,v): return format(v%(1<<k),'0%db'%k) if k else ''
def al(s): return s+'0'*((-len(s))%8)
def inv(t):
    r={}
    for k,v in t.items(): r.setdefault(str(v),k)
    return r
ADDR=inv(P.ADDR); MOT=inv(P.MOT); DCL=inv(P.DCL); DCC=inv(P.DCC); CBP=inv(P.CBP)
class G:
    def __init__(s,seed):
        s.r=random.Random(seed); r=s.r
        s.w=r.choice([16,16,32,33,48]); s.h=r.choice([16,16,32,20])
        s.cf=1 if r.random()<.96 else r.randrange(4)
        s.wild=r.random()<.1
        s.calm=r.random()<.75
        if s.calm: s.w=r.choice([32,48,64,96]); s.h=r.choice([32,48])
        s.wildx=r.random()<.25      # bigger vectors, odd structures
    def mat(s):
        r=s.r; return ''.join(B(8,r.choice([16,1,255,r.randrange(256),r.randrange(1,40)])) for _ in range(64))
    def seq(s):
        r=s.r; o=B(32,0x1B3)+B(12,s.w)+B(12,s.h)+B(4,1)+B(4,3)+B(18,100)+'1'+B(10,5)+'0'
        o+='1'+s.mat() if r.random()<.2 else '0'
        o+='1'+s.mat() if r.random()<.2 else '0'
        return al(o)+'00000000'*r.choice([0,0,0,1,3])
    def se(s): return al(B(32,0x1B5)+B(4,1)+B(8,0x48)+B(1,1)+B(2,s.cf)+B(2,0)+B(2,0)+B(12,0)+'1'+B(8,0)+'0'+B(2,0)+B(5,0))
    def ud(s):
        r=s.r; return B(32,0x1B2)+''.join(B(8,r.randrange(1,256)) for _ in range(r.randrange(4)))
    def ext0(s):
        r=s.r;o=''
        while r.random()<.2: o+=r.choice([s.ud, lambda: al(B(32,0x1B5)+B(4,2)+B(3,0)+(('1'+B(24,7)) if r.random()<.5 else '0')+B(14,4)+'1'+B(14,9))])()
        if r.random()<.01: o+=al(B(32,0x1B5)+B(4,5)+B(30,3))
        return o
    def ext2(s):
        r=s.r;o=''
        def qme():
            q=B(32,0x1B5)+B(4,3)
            for _ in range(4): q+='1'+s.mat() if r.random()<.3 else '0'
            return al(q)
        while r.random()<.2: o+=r.choice([s.ud,qme,lambda: al(B(32,0x1B5)+B(4,10)+B(2,0)+B(10,4)+'1'+B(10,5))])()
        if r.random()<.01: o+=al(B(32,0x1B5)+B(4,r.choice([4,7,9]))+B(30,3))
        return o
    def gop(s):
        o=al(B(32,0x1B8)+B(25,s.r.randrange(1<<25))+'00')
        while s.r.random()<.1: o+=s.ud()
        return o
    def pic(s,pct,tr):
        r=s.r; s.pct=pct
        o=B(32,0x100)+B(10,tr)+B(3,pct)+B(16,5)
        if pct in(2,3): o+='0'+B(3,7)
        if pct==3: o+='0'+B(3,7)
        while r.random()<.1: o+='1'+B(8,r.randrange(256))
        o=al(o+'0')
        f=[1 if s.calm and r.random()<.7 else r.choice([1,1,2,3]) for _ in range(4)]
        if r.random()<.01: f[r.randrange(4)]=0
        s.f=[[f[0],f[1]],[f[2],f[3]]]
        s.dcp=r.randrange(4); s.ps=3 if r.random()<.85 else r.randrange(4); s.fpfd=r.choice([1,1,0]); s.cmv=r.random()<.15
        s.qst=r.randrange(2); s.ivf=r.randrange(2); s.as_=r.randrange(2)
        e=B(32,0x1B5)+B(4,8)+''.join(B(4,x) for x in f)+B(2,s.dcp)+B(2,s.ps)+'0'+B(1,s.fpfd)+B(1,s.cmv)+B(1,s.qst)+B(1,s.ivf)+B(1,s.as_)+'010'
        e+='1'+B(20,r.randrange(1<<20)) if r.random()<.1 else '0'
        o+=al(e)+s.ext2()
        rows=(s.h+15)//16
        order=list(range(rows))
        if r.random()<.1: r.shuffle(order)
        if r.random()<.02: order.append(rows)
        for row in order:
            o+=s.slice(row)
        return o
    def block(s,cc,intra):
        r=s.r;o='';n=0
        if intra:
            sz=r.choice([0,0,1,2,3,4,5,6,7,8,9,10,11]) if s.wild else r.choice([0,1,2,3,4,5,6])
            o+=(DCL if cc==0 else DCC)[str(sz)]+B(sz,r.randrange(1<<sz)); n=1
        tb=P.DCT[1] if intra and s.ivf else P.DCT[0]
        k=r.choice([0,1,1,2,3,5,10,40]) if (intra or n>0) else r.choice([1,1,2,3,5,10,40])
        for _ in range(k):
            t=tb[0] if n==0 else tb[1]
            code,v=r.choice(list(t.items()))
            if v=='eob': break
            if v=='esc':
                run=r.choice([0,0,1,2,r.randrange(64)]); lv=r.randrange(-2048,2048)
                if n+run>63 and r.random()<.9998: continue
                o+=code+B(6,run)+B(12,lv); n+=run+1
            else:
                if r.random()<.4 and v[0]>3: continue
                if n+v[0]>63 and r.random()<.9998: continue
                o+=code+r.choice('01'); n+=v[0]+1
        if n==0: o+=r.choice(['10','11']); n=1
        for c,v in tb[1].items():
            if v=='eob': o+=c; break
        return o
    def mv(s,si,fmt,fdt):
        r=s.r
        if s.fpfd==1: info=(1,0,0)
        elif fmt: info={1:(2,1,0),2:(1,0,0),3:(1,1,1)}[fmt]
        elif fdt: info={1:(1,1,0),2:(2,1,0),3:(1,1,1)}[fdt]
        else: info=(1,0,0)
        def part(t):
            m=16 if s.wild else 3
            c=r.choice([0,0,r.randrange(-m,m+1)])
            if s.f[si][t]>1 and not s.wild: c=r.choice([0,0,-1,1])
            if s.calm and r.random()<.85: c=0
            o=MOT[str(c)]
            if s.f[si][t]!=1 and c!=0 and s.f[si][t]>0: o+=B(s.f[si][t]-1,r.randrange(1<<(s.f[si][t]-1)))
            return o
        o=''
        if info[0]==1:
            if info[1] and not info[2]: o+=r.choice('01')
            return o+part(0)+part(1)
        return r.choice('01')+part(0)+part(1)+r.choice('01')+part(0)+part(1)
    def slice(s,row):
        r=s.r; o=B(32,0x101+row)+B(5,r.randrange(32))
        if r.random()<.1:
            o+='1'+r.choice('01')+B(7,0)
            while r.random()<.3: o+='1'+B(8,r.randrange(256))
        o+='0'
        mw=(s.w+15)//16; a=-1
        lim=mw if r.random()<.998 else mw*3
        while a<lim-1:
            inc=1
            while a+inc<lim-1 and r.random()<(.3 if s.pct!=1 else .05): inc+=1
            a+=inc
            while inc>33: o+='00000001000'; inc-=33
            o+=ADDR[str(inc)]
            T={1:P.TI,2:P.TP,3:P.TB}.get(s.pct,P.TI)
            code,t=r.choice(list(T.items())); o+=code
            fmt=fdt=0
            if t['fwd'] or t['bwd']:
                if s.ps==3:
                    if s.fpfd==0: fmt=r.choice([1,2,2,2,1,1,2,r.randrange(4)]); o+=B(2,fmt)
                else: fdt=r.choice([1,2,1,2,1,2,r.randrange(4)]); o+=B(2,fdt)
            if s.ps==3 and s.fpfd==0 and (t['intra'] or t['pattern']): o+=r.choice('01')
            if t['quant']: o+=B(5,r.randrange(32))
            if t['fwd'] or (t['intra'] and s.cmv): o+=s.mv(0,fmt,fdt)
            if t['bwd']: o+=s.mv(1,fmt,fdt)
            if t['intra'] and s.cmv: o+='1'
            cbp=0
            if t['pattern']: cbp=r.randrange(64); o+=CBP[str(cbp)]
            for i in range({1:6,2:8,3:12}.get(s.cf,0)):
                cc=0 if i<4 else 1+i%2
                if t['intra'] or (t['pattern'] and i<6 and cbp>>(5-i)&1): o+=s.block(cc,t['intra'])
        return al(o)
    def stream(s):
        r=s.r; o=s.seq()+s.se()+s.ext0()
        for g in range(r.choice([1,1,2])):
            if r.random()<.9: o+=s.gop()
            n=r.randrange(1,5)
            # decode order with anchors every 1..3
            if r.random()<.8:
                seqn=[(1,0)]; t=0
                for _ in range(n-1):
                    k=r.choice([1,1,2,3])
                    seqn.append((r.choice([1,2,2,2]),t+k))
                    for b in range(1,k): seqn.append((3,t+b))
                    t+=k
            else: seqn=[(r.choice([1,2,3,4]) if r.random()<.3 else r.choice([1,2,3]),r.randrange(4)) for _ in range(n)]
            if r.random()<.9: seqn[0]=(1,seqn[0][1])
            for pct,tr in seqn: o+=s.pic(pct,tr)
            if r.random()<.2: o+=s.seq()+s.se()+s.ext0()
        o+=B(32,0x1B7)
        x=r.random()
        if x<.15:   # flip bits
            o=list(o)
            for _ in range(r.choice([1,1,3])):
                i=r.randrange(len(o)); o[i]='1' if o[i]=='0' else '0'
            o=''.join(o)
        elif x<.2: o=o[:8*r.randrange(len(o)//8)]
        return o
